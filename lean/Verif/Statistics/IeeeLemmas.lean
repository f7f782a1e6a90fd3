import Verif.Statistics.Ieee
import Mathlib.Algebra.BigOperators.Group.List.Basic
import Mathlib.Algebra.Order.BigOperators.Group.List

/-! # Lemmas: rounding errors of the statistics functions -/
namespace Gul14.Statistics
open Ieee NumUtil

variable {ε : Type}

theorem Rep.of_round {f : Format} (hf : Sane f) {x : ℚ} (h : |x| ≤ f.max) :
    f.round x = .num (f.near x) ∧ f.Rep (f.near x) := by
  have h1 := round_num f (by have := hf.p; omega) hf.emax h
  exact ⟨h1, round_rep f (by have := hf.p; omega) hf.emax h1⟩

theorem grid_neg (f : Format) {x : ℚ} (h : f.Grid x) : f.Grid (-x) := by
  obtain ⟨m, e, h1, h2, h3⟩ := h
  exact ⟨-m, e, by rw [h1]; push_cast; ring, by rw [abs_neg]; exact h2, h3⟩

/-- The sum of two numbers of a format is rounded with a relative error, also if it is small. -/
theorem near_add {f : Format} (hp : 1 ≤ f.p) {x y : ℚ} (hx : f.Grid x) (hy : f.Grid y) :
    |f.near (x + y) - (x + y)| ≤ |x + y| / 2 ^ f.p := by
  by_cases h : (2 : ℚ) ^ (f.emin + f.p - 1) ≤ |x + y|
  · exact near_rel f h
  · obtain ⟨a, ha⟩ := rep_multiple f hx
    obtain ⟨b, hb⟩ := rep_multiple f hy
    have hg : f.Grid (x + y) := by
      refine ⟨a + b, f.emin, by rw [ha, hb]; push_cast; ring, ?_, le_refl _⟩
      push_neg at h
      rw [ha, hb, ← add_mul, abs_mul, abs_of_pos (zpow2_pos _)] at h
      have e : (2 : ℚ) ^ (f.emin + f.p - 1) = 2 ^ (f.p - 1) * (2 : ℚ) ^ f.emin := by
        rw [← zpow_natCast, ← zpow_add₀ (by norm_num)]; congr 1; omega
      rw [e] at h
      have h1 := lt_of_mul_lt_mul_right h (zpow2_pos _).le
      have h2 : |a + b| < 2 ^ (f.p - 1) := by exact_mod_cast h1
      exact lt_of_lt_of_le h2 (pow_le_pow_right₀ (by norm_num) (by omega))
    rw [near_exact f hp hg, sub_self, abs_zero]
    positivity

/-- Rounding in general. -/
theorem near_gen (f : Format) (x : ℚ) :
    |f.near x - x| ≤ |x| / 2 ^ f.p + (2 : ℚ) ^ (f.emin - 1) := by
  have h := near_err_max f (le_refl |x|)
  have h1 : (0 : ℚ) ≤ |x| / 2 ^ f.p := by positivity
  have h2 := zpow2_pos (f.emin - 1)
  rcases le_total (|x| / 2 ^ f.p) ((2 : ℚ) ^ (f.emin - 1)) with h3 | h3
  · rw [max_eq_right h3] at h; linarith
  · rw [max_eq_left h3] at h; linarith

/-- Bernoulli's inequality and its counterpart. -/
theorem pow_le_simple {u : ℚ} (hu : 0 ≤ u) (n : Nat) (h : n * u ≤ 1 / 2) :
    (1 + u) ^ n ≤ 1 + 2 * (n * u) := by
  have key : ∀ k : Nat, (1 + u) ^ k * (1 - k * u) ≤ 1 := by
    intro k
    induction k with
    | zero => simp
    | succ k ih =>
      have h0 : 0 ≤ (1 + u) ^ k := by positivity
      have : (1 + u) ^ (k + 1) * (1 - ((k + 1 : Nat) : ℚ) * u) ≤ (1 + u) ^ k * (1 - k * u) := by
        rw [pow_succ, mul_assoc]
        refine mul_le_mul_of_nonneg_left ?_ h0
        push_cast
        nlinarith [mul_nonneg hu (mul_nonneg (Nat.cast_nonneg (α := ℚ) k) hu), mul_nonneg hu hu]
      linarith
  have h1 := key n
  have h0 : 0 ≤ (n : ℚ) * u := by positivity
  have hpos : 0 < 1 - n * u := by linarith
  have : (1 + u) ^ n ≤ 1 / (1 - n * u) := by rw [le_div_iff₀ hpos]; exact h1
  refine le_trans this ?_
  rw [div_le_iff₀ hpos]
  nlinarith

theorem pow_ge_simple {u : ℚ} (hu1 : u ≤ 1) (hu : 0 ≤ u) (n : Nat) : 1 - n * u ≤ (1 - u) ^ n := by
  induction n with
  | zero => simp
  | succ n ih =>
    rw [pow_succ]
    have h1 : (1 - n * u) * (1 - u) ≤ (1 - u) ^ n * (1 - u) :=
      mul_le_mul_of_nonneg_right ih (by linarith)
    push_cast
    nlinarith [mul_nonneg (Nat.cast_nonneg (α := ℚ) n) (mul_nonneg hu hu)]

/-- Counts up to 2^p are numbers of the format. -/
theorem conv_count {f : Format} (hf : Sane f) {n : Nat} (hn : n < 2 ^ f.p) (hm : (n : ℚ) ≤ f.max) :
    f.conv (.num n) = .num n := by
  have hp := hf.p
  have he := hf.emin
  show f.round n = _
  rw [round_num f (by omega) hf.emax (by rw [abs_of_nonneg (by positivity)]; exact hm)]
  have hg : f.Grid ((n : Int) : ℚ) := grid_int f (by omega) (by
    rw [abs_of_nonneg (by omega)]; exact_mod_cast hn)
  have := near_exact f (by omega) hg
  rw [show ((n : Int) : ℚ) = (n : ℚ) by simp] at this
  rw [this]

/-! ## Sums -/

theorem fold_sum {f : Format} (hf : Sane f) (acc : ε → Fl) (val : ε → ℚ) :
    ∀ (l : List ε) (A a B : ℚ) (k : Nat), (∀ e ∈ l, f.conv (acc e) = .num (val e)) →
      f.Rep A → |a| ≤ B → |A - a| ≤ ((1 + 1 / 2 ^ f.p) ^ k - 1) * B →
      (1 + 1 / 2 ^ f.p) ^ (k + l.length) * (B + (l.map fun e => |val e|).sum) ≤ f.max →
      ∃ S, l.foldl (fun accu el => f.add accu (f.conv (acc el))) (.num A) = .num S ∧ f.Rep S ∧
        |S - (a + (l.map val).sum)| ≤
          ((1 + 1 / 2 ^ f.p) ^ (k + l.length) - 1) * (B + (l.map fun e => |val e|).sum) := by
  have hp : 1 ≤ f.p := by have := hf.p; omega
  have hu : (0 : ℚ) ≤ 1 / 2 ^ f.p := by positivity
  intro l
  induction l with
  | nil =>
    intro A a B k _ hA _ hAa _
    exact ⟨A, rfl, hA, by simpa using hAa⟩
  | cons e l ih =>
    intro A a B k hval hA haB hAa hmax
    have hx := hval e List.mem_cons_self
    have hxRep : f.Rep (val e) := by
      rcases hacc : acc e with q | b | _
      · rw [hacc] at hx; exact round_rep f hp hf.emax hx
      · rw [hacc] at hx; cases hx
      · rw [hacc] at hx; cases hx
    have hB : 0 ≤ B := le_trans (abs_nonneg _) haB
    have hk1 : (1 : ℚ) ≤ (1 + 1 / 2 ^ f.p) ^ k := one_le_pow₀ (by linarith)
    have hS : 0 ≤ (l.map fun e => |val e|).sum :=
      List.sum_nonneg (by simp only [List.mem_map]; rintro _ ⟨y, _, rfl⟩; exact abs_nonneg _)
    have hAx : |A + val e| ≤ (1 + 1 / 2 ^ f.p) ^ k * (B + |val e|) := by
      have e1 : A + val e = (A - a) + a + val e := by ring
      rw [e1]
      have h1 := abs_add_le ((A - a) + a) (val e)
      have h2 := abs_add_le (A - a) a
      have h3 : |val e| ≤ (1 + 1 / 2 ^ f.p) ^ k * |val e| :=
        le_mul_of_one_le_left (abs_nonneg _) hk1
      nlinarith
    have hmono : (1 + 1 / 2 ^ f.p : ℚ) ^ k ≤ (1 + 1 / 2 ^ f.p) ^ (k + (e :: l).length) :=
      pow_le_pow_right₀ (by linarith) (by omega)
    simp only [List.map_cons, List.sum_cons] at hmax ⊢
    have hAmax : |A + val e| ≤ f.max := by
      refine le_trans hAx (le_trans ?_ hmax)
      exact mul_le_mul hmono (by linarith) (by positivity) (by positivity)
    obtain ⟨hr, hrep⟩ := Rep.of_round hf hAmax
    have herr := near_add hp (rep_grid f hA) (rep_grid f hxRep)
    have hstep : |f.near (A + val e) - (a + val e)| ≤
        ((1 + 1 / 2 ^ f.p) ^ (k + 1) - 1) * (B + |val e|) := by
      have e1 : f.near (A + val e) - (a + val e) = (f.near (A + val e) - (A + val e)) + (A - a) := by
        ring
      rw [e1]
      refine le_trans (abs_add_le _ _) ?_
      have h1 : |A + val e| / 2 ^ f.p ≤ 1 / 2 ^ f.p * ((1 + 1 / 2 ^ f.p) ^ k * (B + |val e|)) := by
        rw [div_eq_mul_one_div, mul_comm]
        exact mul_le_mul_of_nonneg_left hAx hu
      have h2 : ((1 + 1 / 2 ^ f.p : ℚ) ^ k - 1) * B ≤ ((1 + 1 / 2 ^ f.p) ^ k - 1) * (B + |val e|) :=
        mul_le_mul_of_nonneg_left (by linarith [abs_nonneg (val e)]) (by linarith)
      rw [pow_succ]
      nlinarith
    have hlen : k + (e :: l).length = k + 1 + l.length := by simp; omega
    rw [hlen] at hmax ⊢
    obtain ⟨S, h1, h2, h3⟩ := ih (f.near (A + val e)) (a + val e) (B + |val e|) (k + 1)
      (fun y hy => hval y (List.mem_cons_of_mem _ hy)) hrep
      (le_trans (abs_add_le _ _) (by linarith)) hstep (by rw [add_assoc B]; exact hmax)
    refine ⟨S, ?_, h2, by rw [← add_assoc, ← add_assoc]; exact h3⟩
    rw [List.foldl_cons, hx]
    have : f.add (.num A) (.num (val e)) = .num (f.near (A + val e)) := hr
    rw [this]
    exact h1

/-- Values after conversion are numbers of the format. -/
theorem conv_rep {f : Format} (hf : Sane f) {v : Fl} {x : ℚ} (h : f.conv v = .num x) : f.Rep x := by
  have hp := hf.p
  cases v with
  | num q => exact round_rep f (by omega) hf.emax h
  | inf b => cases h
  | nan => cases h

/-- Numbers of the format are not changed by conversion. -/
theorem conv_of_rep {f : Format} (hf : Sane f) {x : ℚ} (h : f.Rep x) : f.conv (.num x) = .num x := by
  have hp : 1 ≤ f.p := by have := hf.p; omega
  show f.round x = _
  rw [round_num f hp hf.emax (rep_le_max f h), near_exact f hp (rep_grid f h)]

theorem fsum_err {f : Format} (hf : Sane f) (acc : ε → Fl) (val : ε → ℚ) (l : List ε)
    (hne : l ≠ []) (hval : ∀ e ∈ l, f.conv (acc e) = .num (val e))
    (hmax : (1 + 1 / 2 ^ f.p) ^ (l.length - 1) * (l.map fun e => |val e|).sum ≤ f.max) :
    ∃ S, fsum f acc l = .num S ∧ f.Rep S ∧
      |S - (l.map val).sum| ≤
        ((1 + 1 / 2 ^ f.p) ^ (l.length - 1) - 1) * (l.map fun e => |val e|).sum := by
  cases l with
  | nil => exact absurd rfl hne
  | cons e l =>
    have hx := hval e List.mem_cons_self
    have hrep := conv_rep hf hx
    simp only [List.length_cons, Nat.add_sub_cancel, List.map_cons, List.sum_cons] at hmax ⊢
    have h0 : f.add (.num 0) (.num (val e)) = .num (val e) := by
      show f.round (0 + val e) = _
      rw [zero_add]
      exact conv_of_rep hf hrep
    obtain ⟨S, h1, h2, h3⟩ := fold_sum hf acc val l (val e) (val e) |val e| 0
      (fun y hy => hval y (List.mem_cons_of_mem _ hy)) hrep (le_refl _) (by simp)
      (by rw [zero_add]; exact hmax)
    rw [zero_add] at h3
    refine ⟨S, ?_, h2, h3⟩
    rw [fsum, List.foldl_cons, hx, h0]
    exact h1

theorem sum_abs_nonneg (val : ε → ℚ) (l : List ε) : 0 ≤ (l.map fun e => |val e|).sum :=
  List.sum_nonneg (by simp only [List.mem_map]; rintro _ ⟨y, _, rfl⟩; exact abs_nonneg _)

theorem abs_sum_le (val : ε → ℚ) (l : List ε) : |(l.map val).sum| ≤ (l.map fun e => |val e|).sum := by
  induction l with
  | nil => simp
  | cons e l ih =>
    simp only [List.map_cons, List.sum_cons]
    exact le_trans (abs_add_le _ _) (by linarith)

/-- Division by a count. -/
theorem div_count {f : Format} (hf : Sane f) {S : ℚ} (hS : |S| ≤ f.max) {n : Nat} (hn : 1 ≤ n)
    (hn2 : n < 2 ^ f.p) (hm : (n : ℚ) ≤ f.max) :
    f.div (.num S) (f.conv (.num n)) = .num (f.near (S / n)) ∧ f.Rep (f.near (S / n)) := by
  have hn0 : (1 : ℚ) ≤ n := by exact_mod_cast hn
  rw [conv_count hf hn2 hm]
  have hle : |S / (n : ℚ)| ≤ f.max := by
    rw [abs_div, abs_of_nonneg (a := (n : ℚ)) (by linarith), div_le_iff₀ (by linarith)]
    have : 0 ≤ f.max := le_trans (abs_nonneg _) hS
    nlinarith
  obtain ⟨h1, h2⟩ := Rep.of_round hf hle
  refine ⟨?_, h2⟩
  show (if (n : ℚ) = 0 then _ else f.round (S / n)) = _
  rw [if_neg (by linarith), h1]

/-! ## Sums of squares -/

/-- The format `g` in which std::pow and the addition compute for the result format `f`. -/
structure Promotes (f g : Format) : Prop where
  saneF : Sane f
  saneG : Sane g
  wider : f = g ∨ (f.p + 1 ≤ g.p ∧ g.emin ≤ f.emin ∧ f.max ≤ g.max)

theorem promotes32 : Promotes binary32 binary64 :=
  ⟨sane32, sane64, Or.inr ⟨by decide, by decide, by decide +kernel⟩⟩
theorem promotes64 : Promotes binary64 binary64 := ⟨sane64, sane64, Or.inl rfl⟩
theorem promotes80 : Promotes extended extended := ⟨sane80, sane80, Or.inl rfl⟩

theorem Promotes.grid {f g : Format} (h : Promotes f g) {x : ℚ} (hx : f.Grid x) : g.Grid x := by
  rcases h.wider with rfl | ⟨h1, h2, -⟩
  · exact hx
  · obtain ⟨m, e, e1, e2, e3⟩ := hx
    exact ⟨m, e, e1, lt_of_lt_of_le e2 (pow_le_pow_right₀ (by norm_num) (by omega)), by omega⟩

theorem Promotes.max {f g : Format} (h : Promotes f g) : f.max ≤ g.max := by
  rcases h.wider with rfl | ⟨-, -, h⟩
  · exact le_refl _
  · exact h

theorem Promotes.p {f g : Format} (h : Promotes f g) : f.p ≤ g.p := by
  rcases h.wider with rfl | ⟨h, -, -⟩ <;> omega

theorem Promotes.emin {f g : Format} (h : Promotes f g) : g.emin ≤ f.emin := by
  rcases h.wider with rfl | ⟨-, h, -⟩ <;> omega

theorem Promotes.rep {f g : Format} (h : Promotes f g) {x : ℚ} (hx : f.Rep x) : g.Rep x :=
  grid_rep g h.saneG.emax (h.grid (rep_grid f hx)) (le_trans (rep_le_max f hx) h.max)

/-- The relative error of a step: two units of rounding. -/
theorem nu_pos (f : Format) : (0 : ℚ) < 2 / 2 ^ f.p := by positivity

theorem nu_le {f : Format} (hf : Sane f) : (2 : ℚ) / 2 ^ f.p ≤ 1 / 2 := by
  rw [div_le_iff₀ (by positivity)]
  have : (2 : ℚ) ^ 2 ≤ 2 ^ f.p := pow_le_pow_right₀ (by norm_num) hf.p
  linarith

/-- One addition to the sum of squares. -/
theorem addSq_step {f g : Format} (h : Promotes f g) {A s : ℚ} (hA : f.Rep A) (hA0 : 0 ≤ A)
    (hs : g.Rep s) (hs0 : 0 ≤ s) (hmax : (1 + 2 / 2 ^ f.p) * (A + s) ≤ f.max) :
    ∃ a, f.conv (g.add (.num A) (.num s)) = .num a ∧ f.Rep a ∧ 0 ≤ a ∧
      |a - (A + s)| ≤ 2 / 2 ^ f.p * (A + s) + (2 : ℚ) ^ (f.emin - 1) := by
  have hp : 1 ≤ f.p := by have := h.saneF.p; omega
  have hpg : 1 ≤ g.p := by have := h.saneG.p; omega
  have hu := nu_pos f
  have hAs : 0 ≤ A + s := by linarith
  have h1 : A + s ≤ f.max := by nlinarith
  have habs : |A + s| = A + s := abs_of_nonneg hAs
  obtain ⟨hr, hrep⟩ := Rep.of_round h.saneG (show |A + s| ≤ g.max by
    rw [habs]; exact le_trans h1 h.max)
  have herr := near_add hpg (h.grid (rep_grid f hA)) (rep_grid g hs)
  rw [habs] at herr
  have h0 : 0 ≤ g.near (A + s) := near_nonneg g hpg hAs
  have hug : (A + s) / 2 ^ g.p ≤ (A + s) * (1 / 2 ^ f.p) := by
    rw [div_eq_mul_one_div]
    refine mul_le_mul_of_nonneg_left ?_ hAs
    exact one_div_le_one_div_of_le (by positivity) (pow_le_pow_right₀ (by norm_num) h.p)
  have hnu : (2 : ℚ) / 2 ^ f.p = 2 * (1 / 2 ^ f.p) := by ring
  have hu1 : (0 : ℚ) < 1 / 2 ^ f.p := by positivity
  have hle : |g.near (A + s)| ≤ f.max := by
    rw [abs_of_nonneg h0]
    have := (abs_le.mp herr).2
    rw [hnu] at hmax
    nlinarith
  have hadd : g.add (.num A) (.num s) = .num (g.near (A + s)) := hr
  obtain ⟨hr2, hrep2⟩ := Rep.of_round h.saneF hle
  refine ⟨f.near (g.near (A + s)), by rw [hadd]; exact hr2, hrep2, near_nonneg f hp h0, ?_⟩
  have hz := zpow2_pos (f.emin - 1)
  rcases h.wider with rfl | ⟨h2, -, -⟩
  · rw [near_exact f hp (near_grid f hp _)]
    refine le_trans herr ?_
    rw [hnu]
    nlinarith
  · have hgen := near_gen f (g.near (A + s))
    rw [abs_of_nonneg h0] at hgen
    have e1 : f.near (g.near (A + s)) - (A + s) =
        (f.near (g.near (A + s)) - g.near (A + s)) + (g.near (A + s) - (A + s)) := by ring
    rw [e1]
    refine le_trans (abs_add_le _ _) ?_
    have hug2 : (A + s) / 2 ^ g.p ≤ (A + s) * (1 / 2 ^ f.p / 2) := by
      rw [div_eq_mul_one_div]
      refine mul_le_mul_of_nonneg_left ?_ hAs
      have : (2 : ℚ) ^ (f.p + 1) ≤ 2 ^ g.p := pow_le_pow_right₀ (by norm_num) h2
      rw [pow_succ] at this
      calc (1 : ℚ) / 2 ^ g.p ≤ 1 / (2 ^ f.p * 2) := one_div_le_one_div_of_le (by positivity) this
        _ = _ := by ring
    have hge := (abs_le.mp herr).2
    have hule : (1 : ℚ) / 2 ^ f.p ≤ 1 / 4 := by
      have := nu_le h.saneF
      rw [hnu] at this
      linarith
    rw [hnu]
    rw [div_eq_mul_one_div] at hgen
    set u := (1 : ℚ) / 2 ^ f.p
    have hge2 : g.near (A + s) ≤ (A + s) + (A + s) * (u / 2) := by linarith
    have hmul : g.near (A + s) * u ≤ ((A + s) + (A + s) * (u / 2)) * u :=
      mul_le_mul_of_nonneg_right hge2 hu1.le
    nlinarith [mul_nonneg hAs hu1.le]

set_option maxHeartbeats 1600000 in
theorem fold_sq {f g : Format} (h : Promotes f g) (sq : Square g) (dev : ε → Fl) (val : ε → ℚ) :
    ∀ (l : List ε) (A B : ℚ) (k : Nat), (∀ e ∈ l, dev e = .num (val e) ∧ f.Rep (val e)) →
      f.Rep A → 0 ≤ A → 0 ≤ B →
      (1 - 2 / 2 ^ f.p) ^ (k + 1) * B - 2 * k * (2 : ℚ) ^ f.emin ≤ A →
      A ≤ (1 + 2 / 2 ^ f.p) ^ (k + 1) * (B + 2 * k * (2 : ℚ) ^ f.emin) →
      (1 + 2 / 2 ^ f.p) ^ (k + l.length + 1) *
        (B + (l.map fun e => val e ^ 2).sum + 2 * (k + l.length) * (2 : ℚ) ^ f.emin) ≤ f.max →
      ∃ S, l.foldl (fun accu el => addSq f g sq accu (dev el)) (.num A) = .num S ∧ f.Rep S ∧ 0 ≤ S ∧
        (1 - 2 / 2 ^ f.p) ^ (k + l.length + 1) * (B + (l.map fun e => val e ^ 2).sum) -
          2 * (k + l.length) * (2 : ℚ) ^ f.emin ≤ S ∧
        S ≤ (1 + 2 / 2 ^ f.p) ^ (k + l.length + 1) *
          (B + (l.map fun e => val e ^ 2).sum + 2 * (k + l.length) * (2 : ℚ) ^ f.emin) := by
  have hu := nu_pos f
  have hu2 := nu_le h.saneF
  have ht := zpow2_pos f.emin
  intro l
  induction l with
  | nil =>
    intro A B k _ hA hA0 _ h1 h2 _
    refine ⟨A, rfl, hA, hA0, ?_, ?_⟩
    · simpa using h1
    · simpa using h2
  | cons e l ih =>
    intro A B k hval hA hA0 hB h1 h2 hmax
    obtain ⟨hx, hxr⟩ := hval e List.mem_cons_self
    have hS : 0 ≤ (l.map fun e => val e ^ 2).sum :=
      List.sum_nonneg (by simp only [List.mem_map]; rintro _ ⟨y, _, rfl⟩; exact sq_nonneg _)
    have hlen : k + (e :: l).length = k + 1 + l.length := by simp; omega
    have hlenq : ((e :: l).length : ℚ) = l.length + 1 := by simp
    simp only [List.map_cons, List.sum_cons] at hmax ⊢
    rw [hlen, hlenq] at hmax ⊢
    set ν := (2 : ℚ) / 2 ^ f.p with hν
    set τ := (2 : ℚ) ^ f.emin with hτ
    have hx2 : 0 ≤ val e ^ 2 := sq_nonneg _
    have hk0 : (0 : ℚ) ≤ k := by positivity
    have hl0 : (0 : ℚ) ≤ l.length := by positivity
    -- the bound after this element
    have hbig : (1 + ν) ^ (k + 2) * (B + val e ^ 2 + 2 * (k + 1) * τ) ≤ f.max := by
      refine le_trans (mul_le_mul (pow_le_pow_right₀ (by linarith) (by omega)) ?_ (by positivity)
        (by positivity)) hmax
      nlinarith
    have hpk : (1 : ℚ) ≤ (1 + ν) ^ k := one_le_pow₀ (by linarith)
    have hpk1 : (1 : ℚ) ≤ (1 + ν) ^ (k + 1) := one_le_pow₀ (by linarith)
    -- the square
    have hνg : (2 : ℚ) / 2 ^ g.p ≤ ν := by
      exact div_le_div_of_nonneg_left (by norm_num) (by positivity)
        (pow_le_pow_right₀ (by norm_num) h.p)
    have hτg : (2 : ℚ) ^ g.emin ≤ τ := zpow2_le h.emin
    have hsq1 : (1 + ν) * val e ^ 2 + τ ≤ (1 + ν) ^ (k + 1) * (val e ^ 2 + τ) := by
      have : (1 + ν) ≤ (1 + ν) ^ (k + 1) := by
        rw [pow_succ]; exact le_mul_of_one_le_left (by linarith) hpk
      nlinarith
    have hpos2 : (1 + ν) ^ (k + 1) * (val e ^ 2 + τ) ≤ f.max := by
      refine le_trans (mul_le_mul (pow_le_pow_right₀ (by linarith) (by omega)) ?_ (by positivity)
        (by positivity)) hbig
      nlinarith
    obtain ⟨s, hs1, hs2⟩ := sq.num (val e) (h.rep hxr) (by
      refine le_trans ?_ (le_trans hpos2 h.max)
      refine le_trans ?_ hsq1
      nlinarith)
    obtain ⟨hs0, hsr⟩ : 0 ≤ s ∧ g.Rep s := by
      rcases sq.range (val e) with hr | ⟨s', hr, h0, hr'⟩
      · rw [hs1] at hr; cases hr
      · rw [hs1] at hr; cases hr; exact ⟨h0, hr'⟩
    have hs3 : |s - val e ^ 2| ≤ ν * val e ^ 2 + τ := by
      refine le_trans hs2 ?_
      nlinarith
    obtain ⟨hslo, hshi⟩ := abs_le.mp hs3
    -- the sum
    have hAs : A + s ≤ (1 + ν) ^ (k + 1) * (B + val e ^ 2 + 2 * k * τ + τ) := by
      have : s ≤ (1 + ν) * val e ^ 2 + τ := by linarith
      have := le_trans this hsq1
      nlinarith
    obtain ⟨a, ha1, ha2, ha3, ha4⟩ := addSq_step h hA hA0 hsr hs0 (by
      refine le_trans ?_ hbig
      rw [← hν]
      calc (1 + ν) * (A + s) ≤ (1 + ν) * ((1 + ν) ^ (k + 1) * (B + val e ^ 2 + 2 * k * τ + τ)) :=
            mul_le_mul_of_nonneg_left hAs (by linarith)
        _ = (1 + ν) ^ (k + 2) * (B + val e ^ 2 + 2 * k * τ + τ) := by ring
        _ ≤ _ := mul_le_mul_of_nonneg_left (by nlinarith) (by positivity))
    rw [← hν] at ha4
    have hhalf : (2 : ℚ) ^ (f.emin - 1) = τ / 2 := by
      rw [zpow_sub_one₀ (by norm_num), hτ]; ring
    rw [hhalf] at ha4
    obtain ⟨halo, hahi⟩ := abs_le.mp ha4
    have hlow : (1 - ν) ^ (k + 1 + 1) * (B + val e ^ 2) - 2 * ((k + 1 : Nat) : ℚ) * τ ≤ a := by
      have e1 : (1 - ν) * (A + s) - τ / 2 ≤ a := by linarith
      have e2 : (1 - ν) * val e ^ 2 - τ ≤ s := by linarith
      have e3 : (1 - ν) ^ (k + 1) * val e ^ 2 ≤ (1 - ν) * val e ^ 2 := by
        refine mul_le_mul_of_nonneg_right ?_ hx2
        rw [pow_succ]
        exact mul_le_of_le_one_left (by linarith) (pow_le_one₀ (by linarith) (by linarith))
      have e4 : (1 - ν) ^ (k + 1) * (B + val e ^ 2) - 2 * k * τ - τ ≤ A + s := by
        rw [mul_add]; linarith
      have e5 : (1 - ν) * ((1 - ν) ^ (k + 1) * (B + val e ^ 2) - 2 * k * τ - τ) ≤
          (1 - ν) * (A + s) := mul_le_mul_of_nonneg_left e4 (by linarith)
      have e6 : (1 - ν) * ((1 - ν) ^ (k + 1) * (B + val e ^ 2) - 2 * k * τ - τ) =
          (1 - ν) ^ (k + 1 + 1) * (B + val e ^ 2) - (1 - ν) * ((2 * k + 1) * τ) := by
        rw [pow_succ (1 - ν) (k + 1)]; ring
      have e7 : (1 - ν) * ((2 * k + 1) * τ) ≤ (2 * k + 1) * τ :=
        mul_le_of_le_one_left (by positivity) (by linarith)
      rw [e6] at e5
      push_cast
      linarith
    have hhigh : a ≤ (1 + ν) ^ (k + 1 + 1) * (B + val e ^ 2 + 2 * ((k + 1 : Nat) : ℚ) * τ) := by
      have e1 : a ≤ (1 + ν) * (A + s) + τ / 2 := by linarith
      have e2 := mul_le_mul_of_nonneg_left hAs (show 0 ≤ 1 + ν by linarith)
      have e3 : (1 + ν) * ((1 + ν) ^ (k + 1) * (B + val e ^ 2 + 2 * k * τ + τ)) =
          (1 + ν) ^ (k + 1 + 1) * (B + val e ^ 2 + 2 * k * τ + τ) := by
        rw [pow_succ (1 + ν) (k + 1)]; ring
      rw [e3] at e2
      have e4 : τ / 2 ≤ (1 + ν) ^ (k + 1 + 1) * (τ / 2) :=
        le_mul_of_one_le_left (by positivity) (one_le_pow₀ (by linarith))
      have e5 : (1 + ν) ^ (k + 1 + 1) * (B + val e ^ 2 + 2 * k * τ + τ + τ / 2) ≤
          (1 + ν) ^ (k + 1 + 1) * (B + val e ^ 2 + 2 * ((k + 1 : Nat) : ℚ) * τ) := by
        refine mul_le_mul_of_nonneg_left ?_ (by positivity)
        push_cast
        nlinarith
      rw [mul_add] at e5
      linarith
    obtain ⟨S, r1, r2, r3, r4, r5⟩ := ih a (B + val e ^ 2) (k + 1)
      (fun y hy => hval y (List.mem_cons_of_mem _ hy)) ha2 ha3 (by linarith) hlow hhigh (by
        refine le_trans (le_of_eq ?_) hmax
        push_cast
        ring)
    refine ⟨S, ?_, r2, r3, ?_, ?_⟩
    · rw [List.foldl_cons, hx]
      have : addSq f g sq (.num A) (.num (val e)) = .num a := by rw [addSq, hs1, ha1]
      rw [this]
      exact r1
    · refine le_trans (le_of_eq ?_) r4
      push_cast
      ring
    · refine le_trans r5 (le_of_eq ?_)
      push_cast
      ring

set_option maxHeartbeats 1600000 in
/-- The quotient by a count and its square root. -/
theorem sqrt_div {f : Format} (hf : Sane f) {S : ℚ} (hS : f.Rep S) (hS0 : 0 ≤ S) {n : Nat}
    (hn : 1 ≤ n) (hn2 : n < 2 ^ f.p) (hm : (n : ℚ) ≤ f.max) :
    ∃ r, f.sqrt (f.div (.num S) (f.conv (.num n))) = .num r ∧ 0 ≤ r ∧
      (1 - 2 / 2 ^ f.p) ^ 2 * (S / n) - (2 : ℚ) ^ f.emin ≤ r ^ 2 ∧
      r ^ 2 ≤ (1 + 2 / 2 ^ f.p) ^ 2 * (S / n + (2 : ℚ) ^ f.emin) := by
  have hp : 1 ≤ f.p := by have := hf.p; omega
  have hn0 : (1 : ℚ) ≤ n := by exact_mod_cast hn
  obtain ⟨h1, h2⟩ := div_count hf (rep_le_max f hS) hn hn2 hm
  have hq : 0 ≤ S / (n : ℚ) := by positivity
  have h0 : 0 ≤ f.near (S / n) := near_nonneg f hp hq
  have hgen := near_gen f (S / (n : ℚ))
  rw [abs_of_nonneg hq, zpow_sub_one₀ (by norm_num)] at hgen
  obtain ⟨q1, q2, q3⟩ := sqrtNear_rel f hp h0
  have hu := nu_pos f
  have hu2 := nu_le hf
  have ht := zpow2_pos f.emin
  obtain ⟨g1, g2⟩ := abs_le.mp hgen
  have hnu : (2 : ℚ) / 2 ^ f.p = 2 * (1 / 2 ^ f.p) := by ring
  rw [hnu] at hu hu2 ⊢
  rw [div_eq_mul_one_div (S / (n : ℚ))] at g1 g2
  set u := (1 : ℚ) / 2 ^ f.p
  set q := S / (n : ℚ)
  set D := f.near q
  set τ := (2 : ℚ) ^ f.emin
  refine ⟨f.sqrtNear D, ?_, q1, ?_, ?_⟩
  · rw [h1]
    show (if D < 0 then _ else _) = _
    rw [if_neg (by linarith)]
  · have e1 : (1 - u) ^ 2 * ((1 - u) * q - τ / 2) ≤ (1 - u) ^ 2 * D :=
      mul_le_mul_of_nonneg_left (by linarith) (by positivity)
    have e2 : (1 - 2 * u) ^ 2 * q ≤ (1 - u) ^ 2 * (1 - u) * q := by
      refine mul_le_mul_of_nonneg_right ?_ hq
      nlinarith [mul_nonneg (show 0 ≤ u by linarith) (show 0 ≤ u by linarith),
        mul_nonneg (show 0 ≤ u by linarith) (mul_nonneg (show 0 ≤ u by linarith) (show 0 ≤ u by linarith))]
    have e3 : (1 - u) ^ 2 * (τ / 2) ≤ τ := by
      have : (1 - u) ^ 2 ≤ 1 := pow_le_one₀ (by linarith) (by linarith)
      nlinarith
    nlinarith
  · have e1 : (1 + u) ^ 2 * D ≤ (1 + u) ^ 2 * ((1 + u) * q + τ / 2) :=
      mul_le_mul_of_nonneg_left (by linarith) (by positivity)
    have e2 : (1 + u) ^ 2 * (1 + u) * q ≤ (1 + 2 * u) ^ 2 * q := by
      refine mul_le_mul_of_nonneg_right ?_ hq
      nlinarith [mul_nonneg (show 0 ≤ u by linarith) (show 0 ≤ u by linarith),
        mul_nonneg (show 0 ≤ u by linarith) (mul_nonneg (show 0 ≤ u by linarith) (show 0 ≤ u by linarith))]
    have e3 : (1 + u) ^ 2 * (τ / 2) ≤ (1 + 2 * u) ^ 2 * τ :=
      mul_le_mul (pow_le_pow_left₀ (by linarith) (by linarith) 2) (by linarith) (by positivity)
        (by positivity)
    nlinarith

end Gul14.Statistics
