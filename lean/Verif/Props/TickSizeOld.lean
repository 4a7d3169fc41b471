/-
C85: the legacy tick-size estimate is the median gap, rounded to two significant digits.
-/
import Verif.Model.TickSizeOld
import Verif.Props.TickSize
import Verif.Lemmas.Median

set_option linter.unusedSectionVars false

namespace FinML

/-- The sorted distinct prices of the sample. -/
def SampleOf (prices u : List ℚ) : Prop :=
  u.Pairwise (· < ·) ∧ ∀ p, p ∈ u ↔ ∃ q ∈ prices.take 10000, round12 q = p

/-- Gaps between neighbours. -/
def priceGaps (u : List ℚ) : List ℚ := List.zipWith (fun a b => b - a) u u.tail

theorem npDiff_eq_gaps : ∀ u : List ℚ, npDiff u = priceGaps u
  | [] => rfl
  | [_] => rfl
  | a :: b :: l => by
    rw [npDiff, npDiff_eq_gaps (b :: l)]
    rfl

theorem sample_unique (prices u : List ℚ) (h : SampleOf prices u) : npUnique ((prices.take 10000).map round12) = u := by
  have hs := npUnique_sorted ((prices.take 10000).map round12)
  have hn1 : (npUnique ((prices.take 10000).map round12)).Nodup := hs.imp (fun h => ne_of_lt h)
  have hn2 : u.Nodup := h.1.imp (fun h => ne_of_lt h)
  have hperm : (npUnique ((prices.take 10000).map round12)).Perm u := by
    rw [List.perm_ext_iff_of_nodup hn1 hn2]
    intro p
    rw [mem_npUnique, h.2, List.mem_map]
  exact hperm.eq_of_pairwise (fun x y _ _ h1 h2 => absurd h1 (not_lt.mpr h2.le)) hs h.1

theorem rint_near (x : ℚ) : |(rint x : ℚ) - x| ≤ 1 / 2 := by
  have h1 : (x.floor : ℚ) ≤ x := Rat.floor_le x
  have h2 : x < (x.floor : ℚ) + 1 := by exact_mod_cast Rat.lt_floor_add_one x
  unfold rint
  simp only []
  split_ifs with a b c
  · rw [abs_le]; constructor <;> linarith
  · push_cast; rw [abs_le]; constructor <;> linarith
  · rw [abs_le]; constructor <;> linarith
  · push_cast; rw [abs_le]; constructor <;> linarith

theorem log_bounds (x : ℚ) (hx : 0 < x) : (10 : ℚ) ^ Int.log 10 |x| ≤ x ∧ x < (10 : ℚ) ^ (Int.log 10 |x| + 1) := by
  rw [abs_of_pos hx]
  exact ⟨by exact_mod_cast Int.zpow_log_le_self (b := 10) (by norm_num) hx,
    by exact_mod_cast Int.lt_zpow_succ_log_self (b := 10) (by norm_num) x⟩

theorem roundTwo_near (x : ℚ) (hx : 0 < x) : |roundTwo x - x| ≤ x / 20 := by
  obtain ⟨h1, _⟩ := log_bounds x hx
  unfold roundTwo roundDigits
  generalize Int.log 10 |x| = e at *
  have hp : (0 : ℚ) < 10 ^ (2 - 1 - e) := zpow_pos (by norm_num) _
  have hr := rint_near (x * 10 ^ (2 - 1 - e))
  have he : (rint (x * 10 ^ (2 - 1 - e)) : ℚ) / 10 ^ (2 - 1 - e) - x
      = ((rint (x * 10 ^ (2 - 1 - e)) : ℚ) - x * 10 ^ (2 - 1 - e)) / 10 ^ (2 - 1 - e) := by
    field_simp
  rw [he, abs_div, abs_of_pos hp, div_le_iff₀ hp]
  have hpe : (10 : ℚ) ^ (2 - 1 - e) * 10 ^ e = 10 := by
    rw [← zpow_add₀ (by norm_num)]
    norm_num
  have : (10 : ℚ) ≤ x * 10 ^ (2 - 1 - e) := by
    calc (10 : ℚ) = 10 ^ (2 - 1 - e) * 10 ^ e := hpe.symm
      _ ≤ 10 ^ (2 - 1 - e) * x := by gcongr
      _ = x * 10 ^ (2 - 1 - e) := by ring
  clear he hpe hp h1
  generalize (10 : ℚ) ^ (2 - 1 - e) = P at *
  have e2 : x / 20 * P = x * P / 20 := by ring
  rw [e2]
  linarith

theorem roundTwo_exact (d : Int) (k : Int) (h1 : 10 ≤ d) (h2 : d < 100) : roundTwo ((d : ℚ) * 10 ^ k) = (d : ℚ) * 10 ^ k := by
  have hd1 : (10 : ℚ) ≤ d := by exact_mod_cast h1
  have hd2 : (d : ℚ) < 100 := by exact_mod_cast h2
  have hk : (0 : ℚ) < 10 ^ k := zpow_pos (by norm_num) _
  have hpos : (0 : ℚ) < (d : ℚ) * 10 ^ k := mul_pos (by linarith) hk
  have hlog : Int.log 10 |(d : ℚ) * 10 ^ k| = k + 1 := by
    obtain ⟨a, b⟩ := log_bounds _ hpos
    have u1 : (10 : ℚ) ^ (k + 1) ≤ (d : ℚ) * 10 ^ k := by
      rw [zpow_add₀ (by norm_num), zpow_one]; nlinarith
    have u2 : (d : ℚ) * 10 ^ k < (10 : ℚ) ^ (k + 2) := by
      have : (10 : ℚ) ^ (k + 2) = 10 ^ k * 100 := by
        rw [zpow_add₀ (by norm_num)]; norm_num
      rw [this]; nlinarith
    have l1 := (zpow_lt_zpow_iff_right₀ (by norm_num : (1 : ℚ) < 10)).mp (lt_of_le_of_lt a u2)
    have l2 := (zpow_lt_zpow_iff_right₀ (by norm_num : (1 : ℚ) < 10)).mp (lt_of_le_of_lt u1 b)
    omega
  unfold roundTwo roundDigits
  rw [hlog]
  have hnd : (2 : Int) - 1 - (k + 1) = -k := by ring
  rw [hnd]
  have : (d : ℚ) * 10 ^ k * 10 ^ (-k) = (d : ℚ) := by
    rw [mul_assoc, ← zpow_add₀ (by norm_num)]; norm_num
  rw [this, rint_intCast, zpow_neg]
  field_simp

theorem gaps_pos (u : List ℚ) (h : u.Pairwise (· < ·)) : ∀ d ∈ priceGaps u, 0 < d := by
  rw [← npDiff_eq_gaps]
  exact npDiff_pos u h

theorem median_pos (l : List ℚ) (hne : l ≠ []) (h : ∀ d ∈ l, 0 < d) : 0 < npMedian l := by
  obtain ⟨a, b, ha, hb, he⟩ := npMedian_isMedian l hne
  rw [he]
  have := h a ha.1
  have := h b hb.1
  linarith

/-- **C85.** With at least two distinct prices in the sample the estimate is a median of the gaps between neighbouring
distinct prices, up to a twentieth of it. -/
theorem C85_median_gap (prices u : List ℚ) (hu : SampleOf prices u) (h2 : 2 ≤ u.length) :
    ∃ r m, compTickSizeOld prices = .ok r ∧ IsMedian (priceGaps u) m ∧ 0 < m ∧ |r - m| ≤ m / 20 := by
  have hne : prices ≠ [] := by
    rintro rfl
    match u, h2 with
    | a :: _, _ =>
      have := (hu.2 a).mp (by simp)
      simp at this
  have hg : priceGaps u ≠ [] := by
    match u, h2 with
    | a :: b :: l, _ => simp [priceGaps]
  have hm := median_pos (priceGaps u) hg (gaps_pos u hu.1)
  refine ⟨roundTwo (npMedian (priceGaps u)), npMedian (priceGaps u), ?_, npMedian_isMedian _ hg, hm, roundTwo_near _ hm⟩
  unfold compTickSizeOld
  rw [if_neg hne]
  simp only []
  rw [sample_unique prices u hu, if_neg (by omega), npDiff_eq_gaps, if_neg hm.ne']

theorem orderStat_majority (l : List ℚ) (g v : ℚ) (k : Nat) (hv : IsOrderStat l k v) (hk : l.length - 1 ≤ 2 * k + 1)
    (hk' : 2 * k ≤ l.length) (hc : l.length < 2 * l.count g) : v = g := by
  obtain ⟨_, h1, h2⟩ := hv
  have hcl : l.count g = l.countP (fun x => decide (x = g)) := by
    rw [List.count_eq_countP]
    congr 1
  rcases lt_trichotomy v g with h | h | h
  · -- elements `≤ v` and elements `= g` are disjoint
    exfalso
    have : l.countP (fun x => decide (x ≤ v)) + l.countP (fun x => decide (x = g)) ≤ l.length := by
      rw [List.length_eq_countP_add_countP (fun x => decide (x ≤ v)) (l := l)]
      refine Nat.add_le_add_left (List.countP_mono_left (fun x _ hx => ?_)) _
      simp only [decide_eq_true_eq] at hx ⊢
      subst hx
      exact not_le.mpr h
    omega
  · exact h
  · exfalso
    have : l.countP (fun x => decide (x = g)) ≤ l.countP (fun x => decide (x < v)) := by
      refine List.countP_mono_left (fun x _ hx => ?_)
      simp only [decide_eq_true_eq] at hx ⊢
      subst hx; exact h
    omega

/-- If more than half of the gaps are `g`, and `g` has at most two significant digits, the estimate is exactly `g`. -/
theorem C85_majority (prices u : List ℚ) (hu : SampleOf prices u) (d k : Int) (h1 : 10 ≤ d) (h2 : d < 100)
    (hmaj : (priceGaps u).length < 2 * (priceGaps u).count ((d : ℚ) * 10 ^ k)) :
    compTickSizeOld prices = .ok ((d : ℚ) * 10 ^ k) := by
  have hg : priceGaps u ≠ [] := by
    intro h
    rw [h] at hmaj
    simp at hmaj
  have hul : 2 ≤ u.length := by
    match u, hg with
    | [], h => simp [priceGaps] at h
    | [a], h => simp [priceGaps] at h
    | a :: b :: l, _ => simp
  have hne : prices ≠ [] := by
    rintro rfl
    match u, hul with
    | a :: _, _ =>
      have := (hu.2 a).mp (by simp)
      simp at this
  have hpos := List.length_pos_iff.mpr hg
  have hmed : npMedian (priceGaps u) = (d : ℚ) * 10 ^ k := by
    obtain ⟨a, b, ha, hb, he⟩ := npMedian_isMedian (priceGaps u) hg
    rw [he, orderStat_majority _ _ a _ ha (by omega) (by omega) hmaj, orderStat_majority _ _ b _ hb (by omega) (by omega) hmaj]
    ring
  have hm := median_pos (priceGaps u) hg (gaps_pos u hu.1)
  unfold compTickSizeOld
  rw [if_neg hne]
  simp only []
  rw [sample_unique prices u hu, if_neg (by omega), npDiff_eq_gaps, if_neg hm.ne', hmed, roundTwo_exact d k h1 h2]

/-- Only the set of the first 10000 prices matters. -/
theorem C85_order_free (a b : List ℚ) (ha : a ≠ []) (hb : b ≠ []) (h : ∀ p, p ∈ a.take 10000 ↔ p ∈ b.take 10000) :
    compTickSizeOld a = compTickSizeOld b := by
  have hsa : SampleOf a (npUnique ((b.take 10000).map round12)) := by
    refine ⟨npUnique_sorted _, fun p => ?_⟩
    rw [mem_npUnique, List.mem_map]
    constructor
    · rintro ⟨q, hq, e⟩; exact ⟨q, (h q).mpr hq, e⟩
    · rintro ⟨q, hq, e⟩; exact ⟨q, (h q).mp hq, e⟩
  unfold compTickSizeOld
  rw [if_neg ha, if_neg hb, sample_unique a _ hsa]

example : ∀ p, p ∈ ([1, 2, 2] : List ℚ).take 10000 ↔ p ∈ ([2, 1] : List ℚ).take 10000 := by
  intro p
  simp only [show ([1, 2, 2] : List ℚ).take 10000 = [1, 2, 2] from rfl, show ([2, 1] : List ℚ).take 10000 = [2, 1] from rfl,
    List.mem_cons, List.not_mem_nil, or_false]
  tauto

/-- No prices: an error.  One distinct price: zero. -/
theorem C85_degenerate (prices : List ℚ) :
    (prices = [] → ∃ e, compTickSizeOld prices = .error e) ∧
    (prices ≠ [] → (∀ p ∈ prices, ∀ q ∈ prices, p = q) → compTickSizeOld prices = .ok 0) := by
  refine ⟨fun h => ⟨_, by unfold compTickSizeOld; rw [if_pos h]⟩, fun hne hall => ?_⟩
  obtain ⟨x, l, rfl⟩ := List.exists_cons_of_ne_nil hne
  have hs : SampleOf (x :: l) [round12 x] := by
    refine ⟨by simp, fun p => ?_⟩
    rw [List.mem_singleton]
    constructor
    · rintro rfl; exact ⟨x, by simp, rfl⟩
    · rintro ⟨q, hq, rfl⟩
      rw [hall q (List.mem_of_mem_take hq) x (by simp)]
  unfold compTickSizeOld
  rw [if_neg hne]
  simp only []
  rw [sample_unique _ _ hs, if_pos (by simp)]

/-- Violation: the estimate need not divide the price differences.  Prices 0, 2, 5, 8 have tick 1, which the newer
function finds; the legacy one gives 3. -/
theorem C85_misses_tick : compTickSizeOld [0, 2, 5, 8] = .ok 3 ∧ compTickSize [0, 2, 5, 8] = .ok 1 ∧
    ¬ IsTick [0, 2, 5, 8] 3 := by
  refine ⟨by decide +kernel, by decide +kernel, ?_⟩
  rintro ⟨_, h, _⟩
  obtain ⟨k, hk⟩ := h 0 (by simp) 2 (by simp)
  have : (3 : ℚ) * k = 2 ∨ (3 : ℚ) * k = -2 := by
    left; linarith
  rcases this with h | h
  · have h2 : 3 * k = 2 := by exact_mod_cast h
    omega
  · have h2 : 3 * k = -2 := by exact_mod_cast h
    omega

/-- Violation: a third significant digit is lost; a tick of 0.125 becomes 0.12. -/
theorem C85_third_digit_lost : compTickSizeOld [1, 9/8, 10/8, 11/8] = .ok (12/100) := by decide +kernel

/-! ### Example -/

/-- Non-vacuity of `C85_majority`: gaps 0.05, 0.05, 0.2. -/
example : SampleOf [101, 2021/20, 1011/10, 1013/10] [101, 2021/20, 1011/10, 1013/10] ∧
    priceGaps [101, 2021/20, 1011/10, 1013/10] = [1/20, 1/20, 1/5] ∧
    compTickSizeOld [101, 2021/20, 1011/10, 1013/10] = .ok (1/20) := by
  refine ⟨⟨by decide +kernel, ?_⟩, by decide +kernel, by decide +kernel⟩
  intro p
  have h : ([101, 2021/20, 1011/10, 1013/10] : List ℚ).map round12 = [101, 2021/20, 1011/10, 1013/10] := by decide +kernel
  conv_lhs => rw [← h]
  rw [List.mem_map]
  rfl

end FinML
