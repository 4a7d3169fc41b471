/-
C99: the tick estimate in float64.
-/
import Verif.Model.Float64TickSize
import Verif.Props.TickSize
import Verif.Props.Footprint64
import Verif.Props.Weights64

set_option linter.unusedSectionVars false

namespace FinML

/-- `dec` is the decade of its argument up to a relative error of `2^-40` at the powers of ten: what a `log10` with a small
rounding error gives. -/
def IsDecade (dec : ℚ → Int) : Prop :=
  ∀ x : ℚ, 0 < x → (10 : ℚ) ^ dec x ≤ x * (1 + 1 / 2 ^ 40) ∧ x ≤ (10 : ℚ) ^ (dec x + 1) * (1 + 1 / 2 ^ 40)

theorem rel_f64 {x v e : ℚ} (h : |x - v| ≤ |v| * e) : |f64 x - v| ≤ |v| * (e + (1 + e) / 2 ^ 53) := by
  have h1 := f64_relErr x
  have h2 : |x| ≤ |v| * (1 + e) := by
    have : |x| ≤ |x - v| + |v| := by
      have := abs_add_le (x - v) v
      simpa using this
    linarith
  have h3 := abs_add_le (f64 x - x) (x - v)
  rw [sub_add_sub_cancel] at h3
  have h4 : |x| / 2 ^ 53 ≤ |v| * (1 + e) / 2 ^ 53 := by gcongr
  calc |f64 x - v| ≤ |v| * (1 + e) / 2 ^ 53 + |v| * e := by linarith
    _ = _ := by ring

/-- The rounded price of the sample is within a relative error of `2^-50` of the decimal price. -/
theorem round12f_rel (d : Nat) (hd : d ≤ 12) (k : Int) :
    |round12f (f64 ((k : ℚ) / 10 ^ d)) - (k : ℚ) / 10 ^ d| ≤ |(k : ℚ) / 10 ^ d| * (1 / 2 ^ 50) := by
  have hN : (k : ℚ) / 10 ^ d * 10 ^ 12 = ((k * 10 ^ (12 - d) : Int) : ℚ) := by
    push_cast
    rw [div_mul_eq_mul_div, div_eq_iff (by positivity), mul_assoc, ← pow_add]
    congr 2
    omega
  generalize (k : ℚ) / 10 ^ d = v at *
  generalize (k * 10 ^ (12 - d) : Int) = N at *
  have h1 := f64_relErr v
  have h2 : |f64 v * 10 ^ 12 - N| ≤ |(N : ℚ)| * (1 / 2 ^ 53) := by
    rw [← hN, ← sub_mul, abs_mul, abs_mul]
    have : (0 : ℚ) ≤ |(10 : ℚ) ^ 12| := abs_nonneg _
    nlinarith
  have h3 := rel_f64 h2
  have hN0 : (0 : ℚ) ≤ |(N : ℚ)| := abs_nonneg _
  have h4 : |(rint (f64 (f64 v * 10 ^ 12)) : ℚ) - N| ≤ |(N : ℚ)| * (13 / 2 ^ 54) := by
    rcases le_or_gt |(N : ℚ)| (2 ^ 50) with h | h
    · rw [rint_near_fp _ N]
      · simp only [sub_self, abs_zero]
        positivity
      · refine lt_of_le_of_lt h3 (lt_of_le_of_lt (mul_le_mul_of_nonneg_right h (by norm_num)) (by norm_num))
    · have hb := rint_bounds (f64 (f64 v * 10 ^ 12))
      have h5 : |(rint (f64 (f64 v * 10 ^ 12)) : ℚ) - f64 (f64 v * 10 ^ 12)| ≤ 1 / 2 := by
        rw [abs_le]; constructor <;> linarith [hb.1, hb.2]
      have h6 := abs_add_le ((rint (f64 (f64 v * 10 ^ 12)) : ℚ) - f64 (f64 v * 10 ^ 12)) (f64 (f64 v * 10 ^ 12) - N)
      rw [sub_add_sub_cancel] at h6
      have h7 : (1 / 2 : ℚ) ≤ |(N : ℚ)| * (4 / 2 ^ 53) := by
        have := mul_le_mul_of_nonneg_right h.le (show (0 : ℚ) ≤ 4 / 2 ^ 53 by norm_num)
        refine le_trans (by norm_num) this
      have h8 : |(N : ℚ)| * (1 / 2 ^ 53 + (1 + 1 / 2 ^ 53) / 2 ^ 53) + |(N : ℚ)| * (4 / 2 ^ 53) ≤ |(N : ℚ)| * (13 / 2 ^ 54) := by
        rw [← mul_add]
        exact mul_le_mul_of_nonneg_left (by norm_num) hN0
      refine le_trans (le_trans h6 (add_le_add h5 h3)) (le_trans ?_ h8)
      rw [add_comm]
      exact add_le_add (le_refl _) h7
  have h9 : |(rint (f64 (f64 v * 10 ^ 12)) : ℚ) / 10 ^ 12 - v| ≤ |v| * (13 / 2 ^ 54) := by
    have e : (rint (f64 (f64 v * 10 ^ 12)) : ℚ) / 10 ^ 12 - v = ((rint (f64 (f64 v * 10 ^ 12)) : ℚ) - N) / 10 ^ 12 := by
      rw [← hN]; field_simp
    have e2 : |v| = |(N : ℚ)| / 10 ^ 12 := by
      rw [← hN, abs_mul, abs_of_pos (show (0 : ℚ) < 10 ^ 12 by norm_num)]; field_simp
    rw [e, abs_div, abs_of_pos (show (0 : ℚ) < 10 ^ 12 by norm_num), e2, div_mul_eq_mul_div]
    gcongr
  have h10 := rel_f64 h9
  unfold round12f
  refine le_trans h10 (mul_le_mul_of_nonneg_left (by norm_num) (abs_nonneg _))

/-- The same in units of the last decimal. -/
theorem round12f_abs (d : Nat) (hd : d ≤ 12) (k : Int) (hk : |k| ≤ 2 ^ 44) :
    |round12f (f64 ((k : ℚ) / 10 ^ d)) - (k : ℚ) / 10 ^ d| ≤ 1 / 10 ^ d * (1 / 64) := by
  refine le_trans (round12f_rel d hd k) ?_
  have hkq : |(k : ℚ)| ≤ 2 ^ 44 := by exact_mod_cast hk
  have hp : (0 : ℚ) < 10 ^ d := by positivity
  rw [abs_div, abs_of_pos hp, div_mul_eq_mul_div, div_mul_eq_mul_div]
  have := mul_le_mul_of_nonneg_right hkq (show (0 : ℚ) ≤ 1 / 2 ^ 50 by norm_num)
  exact div_le_div_of_nonneg_right (le_trans this (by norm_num)) hp.le

/-- Distances between rounded prices. -/
theorem round12f_gap (d : Nat) (hd : d ≤ 12) (a b : Int) (ha : |a| ≤ 2 ^ 44) (hb : |b| ≤ 2 ^ 44) :
    ((b - a : Int) - 1 / 32 : ℚ) * (1 / 10 ^ d) ≤ round12f (f64 ((b : ℚ) / 10 ^ d)) - round12f (f64 ((a : ℚ) / 10 ^ d)) ∧
    round12f (f64 ((b : ℚ) / 10 ^ d)) - round12f (f64 ((a : ℚ) / 10 ^ d)) ≤ ((b - a : Int) + 1 / 32 : ℚ) * (1 / 10 ^ d) := by
  have h1 := abs_le.mp (round12f_abs d hd a ha)
  have h2 := abs_le.mp (round12f_abs d hd b hb)
  have e : ∀ k : Int, (k : ℚ) / 10 ^ d = k * (1 / 10 ^ d) := fun k => by ring
  generalize round12f (f64 ((b : ℚ) / 10 ^ d)) = y at *
  generalize round12f (f64 ((a : ℚ) / 10 ^ d)) = x at *
  rw [e] at h1 h2
  generalize (1 : ℚ) / 10 ^ d = s at *
  push_cast
  constructor <;> nlinarith [h1.1, h1.2, h2.1, h2.2]

theorem round12f_lt (d : Nat) (hd : d ≤ 12) (a b : Int) (ha : |a| ≤ 2 ^ 44) (hb : |b| ≤ 2 ^ 44) (h : a < b) :
    round12f (f64 ((a : ℚ) / 10 ^ d)) < round12f (f64 ((b : ℚ) / 10 ^ d)) := by
  have h1 := (round12f_gap d hd a b ha hb).1
  have h2 : (1 : ℚ) ≤ ((b - a : Int) : ℚ) := by exact_mod_cast (by omega : (1 : Int) ≤ b - a)
  have h3 : (0 : ℚ) < ((b - a : Int) - 1 / 32 : ℚ) * (1 / 10 ^ d) := mul_pos (by linarith) (by positivity)
  linarith

/-! ### The divisor of a sorted list of integers -/

theorem gcd_isTick (zs : List Int) (hs : zs.Pairwise (· < ·)) (hlen : 2 ≤ zs.length) (c : ℚ) (hc : 0 < c) :
    IsTick (zs.map (fun z : Int => (z : ℚ) * c)) ((gcdLoop (npDiff zs) 0 : ℚ) * c) := by
  have hzpos := npDiff_pos zs hs
  have hzne : npDiff zs ≠ [] := by
    match zs, hlen with
    | a :: b :: l, _ => simp [npDiff]
  obtain ⟨⟨_, g1⟩, _, g3, g4⟩ := gcdLoop_spec (npDiff zs) 0 (le_refl _) hzpos
  generalize gcdLoop (npDiff zs) 0 = g at *
  have hgpos : (0 : ℚ) < g := by exact_mod_cast g3 (Or.inr hzne)
  have hall := npDiff_closed (fun z : Int => g ∣ z) (dvd_zero _) (fun a b => dvd_add) (fun a h => (dvd_neg).mpr h) zs g1
  refine ⟨mul_pos hgpos hc, ?_, ?_⟩
  · intro p hp q hq
    obtain ⟨z, hz, rfl⟩ := List.mem_map.mp hp
    obtain ⟨w, hw, rfl⟩ := List.mem_map.mp hq
    obtain ⟨k, hk⟩ := hall z hz w hw
    refine ⟨k, ?_⟩
    have : (w : ℚ) - z = g * k := by exact_mod_cast hk
    linear_combination c * this
  · intro d hd
    refine g4 (fun z => ∃ k : Int, (z : ℚ) * c = k * d) ?_ ⟨0, by simp⟩ ?_
    · rintro a b x y ⟨k, hk⟩ ⟨l, hl⟩
      refine ⟨k * x + l * y, ?_⟩
      push_cast
      linear_combination x * hk + y * hl
    · intro z hz
      obtain ⟨a, ha, b, hb, rfl⟩ := npDiff_mem_iff zs z hz
      obtain ⟨k, hk⟩ := hd _ (List.mem_map_of_mem ha) _ (List.mem_map_of_mem hb)
      refine ⟨k, ?_⟩
      push_cast
      linear_combination hk

/-! ### The estimate -/

/-- The sample in increasing order. -/
theorem npUnique_map (f : Int → ℚ) (S : List Int) (hf : ∀ a ∈ S, ∀ b ∈ S, a < b → f a < f b) :
    ∃ zs : List Int, zs.Pairwise (· < ·) ∧ (∀ z, z ∈ zs ↔ z ∈ S) ∧ npUnique (S.map f) = zs.map f := by
  obtain ⟨zs, hzs⟩ : ∃ zs, zs = S.dedup.insertionSort (· ≤ ·) := ⟨_, rfl⟩
  have hm : ∀ z, z ∈ zs ↔ z ∈ S := fun z => by rw [hzs, List.mem_insertionSort, List.mem_dedup]
  have hp : zs.Pairwise (· < ·) := by
    have h1 := List.pairwise_insertionSort (fun a b : Int => a ≤ b) S.dedup
    have h2 : (S.dedup.insertionSort (· ≤ ·)).Nodup := (List.perm_insertionSort _ _).nodup_iff.mpr S.nodup_dedup
    rw [hzs]
    exact (h1.and h2).imp (fun h => lt_of_le_of_ne h.1 h.2)
  refine ⟨zs, hp, hm, ?_⟩
  have hs1 := npUnique_sorted (S.map f)
  have hs2 : (zs.map f).Pairwise (· < ·) := by
    rw [List.pairwise_map]
    exact hp.imp_of_mem (fun ha hb h => hf _ ((hm _).mp ha) _ ((hm _).mp hb) h)
  have hn1 : (npUnique (S.map f)).Nodup := hs1.imp (fun h => ne_of_lt h)
  have hn2 : (zs.map f).Nodup := hs2.imp (fun h => ne_of_lt h)
  have hperm : (npUnique (S.map f)).Perm (zs.map f) := by
    rw [List.perm_ext_iff_of_nodup hn1 hn2]
    intro p
    rw [mem_npUnique, List.mem_map, List.mem_map]
    simp only [hm]
  exact hperm.eq_of_pairwise (fun x y _ _ h1 h2 => absurd h1 (not_lt.mpr h2.le)) hs1 hs2

/-- **C99.** Prices with `d ≤ 12` decimals, stored as float64 numbers, at most `2^44` steps in size: if two prices of the
sample are different but less than ten steps apart, the estimate is the float64 number nearest to the exact tick of the
sampled decimal prices, whatever the last bit of `log10`. -/
theorem C99_tick (dec : ℚ → Int) (hdec : IsDecade dec) (d : Nat) (hd : d ≤ 12) (ks : List Int)
    (hk : ∀ k ∈ ks.take 10000, |k| ≤ 2 ^ 44)
    (hclose : ∃ a ∈ ks.take 10000, ∃ b ∈ ks.take 10000, a < b ∧ b < a + 10) :
    ∃ g, compTickSize64 dec (ks.map (fun k : Int => f64 ((k : ℚ) / 10 ^ d))) = .ok (f64 g) ∧
      IsTick ((ks.take 10000).map (fun k : Int => (k : ℚ) / 10 ^ d)) g := by
  obtain ⟨a, ha, b, hb, hab, hb10⟩ := hclose
  have hne : ks.map (fun k : Int => f64 ((k : ℚ) / 10 ^ d)) ≠ [] := by
    intro h
    rw [List.map_eq_nil_iff] at h
    rw [h] at ha; simp at ha
  obtain ⟨S, hS⟩ : ∃ S, S = ks.take 10000 := ⟨_, rfl⟩
  rw [← hS] at ha hb hk ⊢
  obtain ⟨Y, hY⟩ : ∃ Y : Int → ℚ, Y = fun k : Int => round12f (f64 ((k : ℚ) / 10 ^ d)) := ⟨_, rfl⟩
  have hYgap : ∀ a ∈ S, ∀ b ∈ S, ((b - a : Int) - 1 / 32 : ℚ) * (1 / 10 ^ d) ≤ Y b - Y a ∧
      Y b - Y a ≤ ((b - a : Int) + 1 / 32 : ℚ) * (1 / 10 ^ d) := by
    intro a ha b hb
    rw [hY]
    exact round12f_gap d hd a b (hk a ha) (hk b hb)
  have hYlt : ∀ a ∈ S, ∀ b ∈ S, a < b → Y a < Y b := by
    intro a ha b hb h
    rw [hY]
    exact round12f_lt d hd a b (hk a ha) (hk b hb) h
  obtain ⟨zs, hzs, hzm, hu⟩ := npUnique_map Y S hYlt
  have hmap : (((ks.map (fun k : Int => f64 ((k : ℚ) / 10 ^ d))).take 10000).map round12f) = S.map Y := by
    rw [← List.map_take, ← hS, List.map_map, hY]
    rfl
  have hlen : 2 ≤ zs.length := by
    match zs, hzm with
    | [], hzm => exact absurd ((hzm a).mpr ha) (by simp)
    | [x], hzm =>
      have h1 := (hzm a).mpr ha
      have h2 := (hzm b).mpr hb
      simp only [List.mem_cons, List.not_mem_nil, or_false] at h1 h2
      omega
    | x :: y :: l, _ => simp
  have hus : (zs.map Y).Pairwise (· < ·) := hu ▸ npUnique_sorted _
  -- the smallest difference
  have hpos := npDiff_pos _ hus
  have hf : ((npDiff (zs.map Y)).map f64).filter (fun d => decide (0 < d)) = (npDiff (zs.map Y)).map f64 := by
    rw [List.filter_eq_self]
    intro x hx
    obtain ⟨y, hy, rfl⟩ := List.mem_map.mp hx
    simpa using f64_pos (hpos y hy)
  obtain ⟨s, hs⟩ : ∃ s : ℚ, s = 1 / 10 ^ d := ⟨_, rfl⟩
  have hs0 : 0 < s := by rw [hs]; positivity
  rw [← hs] at hYgap
  have hYa : Y a ∈ zs.map Y := List.mem_map_of_mem ((hzm a).mpr ha)
  have hYb : Y b ∈ zs.map Y := List.mem_map_of_mem ((hzm b).mpr hb)
  obtain ⟨d₀, hd₀, hle₀⟩ := exists_diff_le _ hus _ hYa _ hYb (hYlt a ha b hb hab)
  have hne' : (npDiff (zs.map Y)).map f64 ≠ [] := List.ne_nil_of_mem (List.mem_map_of_mem hd₀)
  obtain ⟨D, hD⟩ : ∃ D, D = minOf ((npDiff (zs.map Y)).map f64) := ⟨_, rfl⟩
  have hup : D ≤ s * (91 / 10) := by
    have h1 : D ≤ f64 d₀ := hD ▸ minOf_le _ _ (List.mem_map_of_mem hd₀)
    have h2 := (hYgap a ha b hb).2
    have h3 := (f64_factor (hpos d₀ hd₀).le).2
    have h4 : ((b - a : Int) : ℚ) ≤ 9 := by exact_mod_cast (by omega : b - a ≤ 9)
    have h5 : d₀ ≤ s * (9 + 1 / 32) := by nlinarith
    have h6 : d₀ * (1 + 1 / 2 ^ 53) ≤ s * (9 + 1 / 32) * (1 + 1 / 2 ^ 53) := mul_le_mul_of_nonneg_right h5 (by norm_num)
    have h7 : s * (9 + 1 / 32) * (1 + 1 / 2 ^ 53) ≤ s * (91 / 10) := by
      rw [mul_assoc]
      exact mul_le_mul_of_nonneg_left (by norm_num) hs0.le
    linarith
  have hlow : s * (9 / 10) ≤ D := by
    have hm := minOf_mem _ hne'
    rw [← hD] at hm
    obtain ⟨x, hx, hxe⟩ := List.mem_map.mp hm
    obtain ⟨p, hp, q, hq, hpq⟩ := npDiff_mem_iff _ _ hx
    obtain ⟨z, hz, rfl⟩ := List.mem_map.mp hp
    obtain ⟨w, hw, rfl⟩ := List.mem_map.mp hq
    have hzS := (hzm z).mp hz
    have hwS := (hzm w).mp hw
    have hzw : z < w := by
      by_contra hc
      have h0 := hpos x hx
      rcases (not_lt.mp hc).eq_or_lt with h | h
      · rw [hpq, h] at h0; simp at h0
      · have := hYlt w hwS z hzS h
        rw [hpq] at h0
        linarith
    have h1 := (hYgap z hzS w hwS).1
    have h2 : (1 : ℚ) ≤ ((w - z : Int) : ℚ) := by exact_mod_cast (by omega : (1 : Int) ≤ w - z)
    have h3 : s * (31 / 32) ≤ x := by rw [hpq]; nlinarith
    have h4 := (f64_factor (hpos x hx).le).1
    rw [hxe] at h4
    have h5 : s * (31 / 32) * (1 - 1 / 2 ^ 53) ≤ x * (1 - 1 / 2 ^ 53) := mul_le_mul_of_nonneg_right h3 (by norm_num)
    have h7 : s * (9 / 10) ≤ s * (31 / 32) * (1 - 1 / 2 ^ 53) := by
      rw [mul_assoc]
      exact mul_le_mul_of_nonneg_left (by norm_num) hs0.le
    linarith
  -- the decade
  have hD0 : 0 < D := lt_of_lt_of_le (mul_pos hs0 (by norm_num)) hlow
  obtain ⟨hd1, hd2⟩ := hdec D hD0
  have hsz : s = (10 : ℚ) ^ (-(d : Int)) := by
    rw [hs, zpow_neg, zpow_natCast, one_div]
  have e1 : dec D ≤ -(d : Int) := by
    have h1 : (10 : ℚ) ^ dec D < (10 : ℚ) ^ (-(d : Int) + 1) := by
      rw [zpow_add₀ (by norm_num), ← hsz]
      have : D * (1 + 1 / 2 ^ 40) ≤ s * (91 / 10) * (1 + 1 / 2 ^ 40) := mul_le_mul_of_nonneg_right hup (by norm_num)
      have h7 : s * (91 / 10) * (1 + 1 / 2 ^ 40) < s * (10 : ℚ) ^ (1 : Int) := by
        rw [mul_assoc]
        exact mul_lt_mul_of_pos_left (by norm_num) hs0
      linarith
    have := (zpow_lt_zpow_iff_right₀ (by norm_num : (1 : ℚ) < 10)).mp h1
    omega
  have e2 : -(d : Int) - 1 ≤ dec D := by
    have h1 : (10 : ℚ) ^ (-(d : Int) - 1) < (10 : ℚ) ^ (dec D + 1) := by
      rw [zpow_sub₀ (by norm_num), ← hsz]
      have h8 : s / (10 : ℚ) ^ (1 : Int) * (1 + 1 / 2 ^ 40) < s * (9 / 10) := by
        rw [div_eq_mul_inv, mul_assoc]
        exact mul_lt_mul_of_pos_left (by norm_num) hs0
      have h9 : s / (10 : ℚ) ^ (1 : Int) * (1 + 1 / 2 ^ 40) < (10 : ℚ) ^ (dec D + 1) * (1 + 1 / 2 ^ 40) := by linarith
      exact lt_of_mul_lt_mul_right h9 (by norm_num)
    have := (zpow_lt_zpow_iff_right₀ (by norm_num : (1 : ℚ) < 10)).mp h1
    omega
  obtain ⟨n, hn, hnd, hn1⟩ : ∃ n : Nat, -dec D = n ∧ d ≤ n ∧ n ≤ d + 1 := ⟨(-dec D).toNat, by omega, by omega, by omega⟩
  have hscale : f64 ((10 : ℚ) ^ (-dec D)) = 10 ^ n := by
    rw [hn, zpow_natCast]
    have h1 := f64_int ((10 : Int) ^ n) (by
      rw [abs_of_pos (by positivity)]
      calc (10 : Int) ^ n ≤ 10 ^ 13 := pow_le_pow_right₀ (by norm_num) (by omega)
        _ ≤ 2 ^ 53 := by norm_num)
    push_cast at h1
    exact h1
  -- the integers
  have hint : ∀ z ∈ zs, rint (f64 (Y z * 10 ^ n)) = z * 10 ^ (n - d) := by
    intro z hz
    have hzS := hk z ((hzm z).mp hz)
    apply rint_near_fp
    have h1 := round12f_rel d hd z
    have e : (z : ℚ) / 10 ^ d * 10 ^ n = ((z * 10 ^ (n - d) : Int) : ℚ) := by
      push_cast
      rw [div_mul_eq_mul_div, div_eq_iff (by positivity), mul_assoc, ← pow_add]
      congr 2
      omega
    have h2 : |Y z * 10 ^ n - ((z * 10 ^ (n - d) : Int) : ℚ)| ≤ |((z * 10 ^ (n - d) : Int) : ℚ)| * (1 / 2 ^ 50) := by
      rw [← e, ← sub_mul, abs_mul, abs_mul, hY]
      have := mul_le_mul_of_nonneg_right h1 (abs_nonneg ((10 : ℚ) ^ n))
      linarith
    refine lt_of_le_of_lt (rel_f64 h2) ?_
    have h3 : |((z * 10 ^ (n - d) : Int) : ℚ)| ≤ 2 ^ 44 * 10 := by
      have : |z * 10 ^ (n - d)| ≤ 2 ^ 44 * 10 := by
        rw [abs_mul]
        refine mul_le_mul hzS ?_ (abs_nonneg _) (by norm_num)
        rw [abs_of_pos (by positivity)]
        calc (10 : Int) ^ (n - d) ≤ 10 ^ 1 := pow_le_pow_right₀ (by norm_num) (by omega)
          _ = 10 := by norm_num
      exact_mod_cast this
    refine lt_of_le_of_lt (mul_le_mul_of_nonneg_right h3 (by norm_num)) (by norm_num)
  have hints : (zs.map Y).map (fun p => rint (f64 (p * 10 ^ n))) = zs.map (fun z => z * 10 ^ (n - d)) := by
    rw [List.map_map]
    exact List.map_congr_left (fun z hz => hint z hz)
  have hval : tickOf64 dec (zs.map Y) = f64 ((gcdLoop (npDiff (zs.map (fun z => z * 10 ^ (n - d)))) 0 : ℚ) * (1 / 10 ^ n)) := by
    unfold tickOf64
    rw [if_neg (by rw [List.length_map]; omega), hf, ← hD]
    simp only [hscale]
    rw [hints]
    congr 1
    ring
  have hs' : (zs.map (fun z => z * 10 ^ (n - d))).Pairwise (· < ·) := by
    rw [List.pairwise_map]
    exact hzs.imp (fun h => mul_lt_mul_of_pos_right h (by positivity))
  have htick := gcd_isTick _ hs' (by rw [List.length_map]; exact hlen) (1 / 10 ^ n) (by positivity)
  refine ⟨_, by unfold compTickSize64; rw [if_neg hne, hmap, hu, hval], isTick_congr _ _ ?_ _ htick⟩
  intro p
  rw [List.map_map, List.mem_map, List.mem_map]
  have e : ∀ z : Int, ((fun z : Int => (z : ℚ) * (1 / 10 ^ n)) ∘ fun z => z * 10 ^ (n - d)) z = (z : ℚ) / 10 ^ d := by
    intro z
    simp only [Function.comp]
    push_cast
    rw [mul_one_div, div_eq_div_iff (by positivity) (by positivity), mul_assoc, ← pow_add]
    congr 2
    omega
  simp only [e, hzm]

example : 2 ≤ 12 ∧ (∀ k ∈ ([101, 104] : List Int).take 10000, |k| ≤ 2 ^ 44) ∧
    ∃ a ∈ ([101, 104] : List Int).take 10000, ∃ b ∈ ([101, 104] : List Int).take 10000, a < b ∧ b < a + 10 := by
  refine ⟨by norm_num, by decide, 101, by decide, 104, by decide, by decide⟩

/-- **C99.** If two prices of the sample are one step apart, the estimate is the float64 number of the step. -/
theorem C99_step (dec : ℚ → Int) (hdec : IsDecade dec) (d : Nat) (hd : d ≤ 12) (ks : List Int)
    (hk : ∀ k ∈ ks.take 10000, |k| ≤ 2 ^ 44) (hstep : ∃ a ∈ ks.take 10000, a + 1 ∈ ks.take 10000) :
    compTickSize64 dec (ks.map (fun k : Int => f64 ((k : ℚ) / 10 ^ d))) = .ok (f64 (1 / 10 ^ d)) := by
  obtain ⟨a, ha, hb⟩ := hstep
  obtain ⟨g, hg, ht⟩ := C99_tick dec hdec d hd ks hk ⟨a, ha, a + 1, hb, by omega, by omega⟩
  suffices h : IsTick ((ks.take 10000).map (fun k : Int => (k : ℚ) / 10 ^ d)) (1 / 10 ^ d) by
    rw [hg, C60_tick_unique _ _ _ ht h]
  refine ⟨by positivity, ?_, ?_⟩
  · intro p hp q hq
    obtain ⟨z, _, rfl⟩ := List.mem_map.mp hp
    obtain ⟨w, _, rfl⟩ := List.mem_map.mp hq
    exact ⟨w - z, by push_cast; ring⟩
  · intro e he
    obtain ⟨k, hk⟩ := he _ (List.mem_map_of_mem ha) _ (List.mem_map_of_mem hb)
    refine ⟨k, ?_⟩
    rw [← hk]
    push_cast
    ring

example : 2 ≤ 12 ∧ (∀ k ∈ ([101, 102, 107] : List Int).take 10000, |k| ≤ 2 ^ 44) ∧
    ∃ a ∈ ([101, 102, 107] : List Int).take 10000, a + 1 ∈ ([101, 102, 107] : List Int).take 10000 := by
  refine ⟨by norm_num, by decide, 101, by decide, by decide⟩

/-- **C99.** With the tick estimated from such a sample, the footprint level of every decimal price with `d` decimals is
exactly its number of steps. -/
theorem C99_levels (dec : ℚ → Int) (hdec : IsDecade dec) (d : Nat) (hd : d ≤ 12) (ks : List Int)
    (hk : ∀ k ∈ ks.take 10000, |k| ≤ 2 ^ 44) (hstep : ∃ a ∈ ks.take 10000, a + 1 ∈ ks.take 10000) :
    ∃ t, compTickSize64 dec (ks.map (fun k : Int => f64 ((k : ℚ) / 10 ^ d))) = .ok t ∧
      ∀ k : Int, |k| ≤ 2 ^ 50 → level64 t (f64 ((k : ℚ) / 10 ^ d)) = k := by
  refine ⟨_, C99_step dec hdec d hd ks hk hstep, fun k h => ?_⟩
  have e : (k : ℚ) / 10 ^ d = k * (1 / 10 ^ d) := by ring
  rw [e]
  exact C92_level_exact (1 / 10 ^ d) (by positivity) k h

/-- **C99.** One distinct price gives zero, no price an error. -/
theorem C99_degenerate (dec : ℚ → Int) (x : ℚ) (n : Nat) :
    (∃ e, compTickSize64 dec [] = .error e) ∧ compTickSize64 dec (List.replicate (n + 1) x) = .ok 0 := by
  refine ⟨⟨_, by unfold compTickSize64; rw [if_pos rfl]⟩, ?_⟩
  unfold compTickSize64
  rw [if_neg (by simp [List.replicate_succ])]
  congr 1
  unfold tickOf64
  rw [if_pos]
  have hs := npUnique_sorted (((List.replicate (n + 1) x).take 10000).map round12f)
  have hm := mem_npUnique (((List.replicate (n + 1) x).take 10000).map round12f)
  match hu : npUnique (((List.replicate (n + 1) x).take 10000).map round12f) with
  | [] => simp
  | [a] => simp
  | a :: b :: l =>
    rw [hu] at hs hm
    have hab : a < b := (List.pairwise_cons.mp hs).1 b (by simp)
    obtain ⟨p, hp, rfl⟩ := List.mem_map.mp ((hm a).mp (by simp))
    obtain ⟨q, hq, rfl⟩ := List.mem_map.mp ((hm b).mp (by simp))
    rw [List.eq_of_mem_replicate (List.mem_of_mem_take hp), List.eq_of_mem_replicate (List.mem_of_mem_take hq)] at hab
    exact absurd hab (lt_irrefl _)

/-- The exact decade is one of the admitted ones. -/
theorem isDecade_log : IsDecade (Int.log 10) := by
  intro x hx
  have h1 : (10 : ℚ) ^ Int.log 10 x ≤ x := by exact_mod_cast Int.zpow_log_le_self (b := 10) (by norm_num) hx
  have h2 : x < (10 : ℚ) ^ (Int.log 10 x + 1) := by exact_mod_cast Int.lt_zpow_succ_log_self (b := 10) (by norm_num) x
  have h3 : (0 : ℚ) < 10 ^ (Int.log 10 x + 1) := zpow_pos (by norm_num) _
  constructor
  · nlinarith
  · nlinarith

/-- Prices more than ten steps apart may give a wrong tick, as in exact arithmetic: 1.00 and 1.15 give 0.2. -/
theorem C99_wide_gap : compTickSize64 (Int.log 10) [1, f64 (115 / 100)] = .ok (f64 (2 / 10)) := by decide +kernel

/-! ### Non-vacuity -/

example : compTickSize64 (Int.log 10) (([6000012, 6000007, 6000008] : List Int).map (fun k : Int => f64 ((k : ℚ) / 10 ^ 2)))
    = .ok (f64 (1 / 100)) := C99_step _ isDecade_log 2 (by norm_num) _ (by decide) (by decide)

/-- The measured gap of 0.2 and 0.3 is below a tenth, the decade is one too small, and the estimate is still right. -/
example : f64 (f64 (3 / 10) - f64 (2 / 10)) < 1 / 10 ∧
    compTickSize64 (Int.log 10) [f64 (2 / 10), f64 (3 / 10)] = .ok (f64 (1 / 10)) := by decide +kernel

example : f64 (1 / 10) ≠ 1 / 10 := by decide +kernel

end FinML
