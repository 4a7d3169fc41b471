/-
C60, exact form: what `comp_price_tick_size` (`finmlkit/bar/utils.py:49-81`) returns on every price list.
-/
import Verif.Props.TickSize
import Verif.Lemmas.Float64

set_option linter.unusedSectionVars false

namespace FinML

/-- The price rounded to a whole multiple of `10 ^ e`, ties to even. -/
def roundDecade (e : Int) (p : ℚ) : ℚ := (rint (p * 10 ^ (-e)) : ℚ) * 10 ^ e

theorem gcdLoop_filter (ds : List Int) : ∀ t, gcdLoop ds t = gcdLoop (ds.filter (fun d => decide (0 < d))) t := by
  induction ds with
  | nil => intro t; rfl
  | cons d ds ih =>
    intro t
    by_cases h : 0 < d
    · rw [List.filter_cons_of_pos (by simpa using h), gcdLoop, gcdLoop, if_pos h, if_pos h]
      simp only [ih]
    · rw [List.filter_cons_of_neg (by simpa using h), gcdLoop, if_neg (by omega), ih]

theorem npDiff_nonneg_int : ∀ u : List Int, u.Pairwise (· ≤ ·) → ∀ d ∈ npDiff u, 0 ≤ d
  | [], _, d, hd => by simp [npDiff] at hd
  | [a], _, d, hd => by simp [npDiff] at hd
  | a :: b :: l, h, d, hd => by
    rw [npDiff] at hd
    obtain ⟨h1, h2⟩ := List.pairwise_cons.mp h
    rcases List.mem_cons.mp hd with rfl | hd
    · have := h1 b (by simp); omega
    · exact npDiff_nonneg_int (b :: l) h2 d hd

/-- **C60 (exact).** Let `10 ^ e` be the decade of the smallest gap between two of the first 10000 prices (rounded to
twelve decimals).  The estimate is the tick of those prices rounded once more, to whole multiples of `10 ^ e`; it is zero
exactly when this second rounding leaves a single price. -/
theorem C60_estimate_exact (prices : List ℚ) (e : Int)
    (hlow : ∀ p ∈ prices.take 10000, ∀ q ∈ prices.take 10000, round12 p < round12 q → (10 : ℚ) ^ e ≤ round12 q - round12 p)
    (hgap : ∃ p ∈ prices.take 10000, ∃ q ∈ prices.take 10000, round12 p < round12 q ∧
      round12 q - round12 p < (10 : ℚ) ^ (e + 1)) :
    ∃ g, compTickSize prices = .ok g ∧
      ((∀ p ∈ prices.take 10000, ∀ q ∈ prices.take 10000, roundDecade e (round12 p) = roundDecade e (round12 q)) → g = 0) ∧
      (¬ (∀ p ∈ prices.take 10000, ∀ q ∈ prices.take 10000, roundDecade e (round12 p) = roundDecade e (round12 q)) →
        IsTick ((prices.take 10000).map (fun p => roundDecade e (round12 p))) g) := by
  have hne : prices ≠ [] := by
    rintro rfl
    obtain ⟨p, hp, _⟩ := hgap
    simp at hp
  have hcpos : (0 : ℚ) < 10 ^ e := zpow_pos (by norm_num) e
  have hmem := mem_npUnique ((prices.take 10000).map round12)
  have hu := npUnique_sorted ((prices.take 10000).map round12)
  obtain ⟨u, hu'⟩ : ∃ u, u = npUnique ((prices.take 10000).map round12) := ⟨_, rfl⟩
  rw [← hu'] at hmem hu
  refine ⟨tickOf u, by unfold compTickSize; rw [if_neg hne, ← hu'], ?_⟩
  obtain ⟨p, hp, q, hq, hpq, hlt⟩ := hgap
  have hpu : round12 p ∈ u := (hmem _).mpr (List.mem_map_of_mem hp)
  have hqu : round12 q ∈ u := (hmem _).mpr (List.mem_map_of_mem hq)
  have hlen : ¬ u.length ≤ 1 := by
    intro h
    rcases Nat.le_one_iff_eq_zero_or_eq_one.mp h with h | h
    · rw [List.length_eq_zero_iff.mp h] at hpu; simp at hpu
    · obtain ⟨a, rfl⟩ := List.length_eq_one_iff.mp h
      simp only [List.mem_singleton] at hpu hqu
      rw [hpu, hqu] at hpq
      exact lt_irrefl _ hpq
  have hposd := npDiff_pos u hu
  have hfilter : (npDiff u).filter (fun d => decide (0 < d)) = npDiff u := by
    rw [List.filter_eq_self]
    intro d hd
    simpa using hposd d hd
  obtain ⟨d₀, hd₀, hle₀⟩ := exists_diff_le u hu _ hpu _ hqu hpq
  have hnd : npDiff u ≠ [] := List.ne_nil_of_mem hd₀
  have hmin_mem := minOf_mem _ hnd
  have hmin_le := minOf_le _ d₀ hd₀
  have hminlow : (10 : ℚ) ^ e ≤ minOf (npDiff u) := by
    obtain ⟨a, ha, b, hb, hab⟩ := npDiff_mem_iff u _ hmin_mem
    obtain ⟨a', ha', rfl⟩ := List.mem_map.mp ((hmem _).mp ha)
    obtain ⟨b', hb', rfl⟩ := List.mem_map.mp ((hmem _).mp hb)
    have h1 := hposd _ hmin_mem
    rw [hab] at h1 ⊢
    exact hlow a' ha' b' hb' (by linarith)
  have hlog : Int.log 10 (minOf (npDiff u)) = e := by
    have hpos : 0 < minOf (npDiff u) := lt_of_lt_of_le hcpos hminlow
    apply le_antisymm
    · have := (Int.lt_zpow_iff_log_lt (b := 10) (by norm_num) hpos (x := e + 1)).mp (by
        push_cast
        linarith)
      omega
    · exact (Int.zpow_le_iff_le_log (b := 10) (by norm_num) hpos (x := e)).mp (by push_cast; exact hminlow)
  obtain ⟨zs, hzs⟩ : ∃ zs, zs = u.map (fun p => rint (p * (10 : ℚ) ^ (-e))) := ⟨_, rfl⟩
  have hval : tickOf u = (gcdLoop ((npDiff zs).filter (fun d => decide (0 < d))) 0 : ℚ) * 10 ^ e := by
    unfold tickOf
    rw [if_neg hlen, hfilter, hlog]
    show (gcdLoop (npDiff (u.map (fun p => rint (p * (10 : ℚ) ^ (-e))))) 0 : ℚ) / (10 : ℚ) ^ (-e) = _
    rw [← hzs, zpow_neg, div_inv_eq_mul, gcdLoop_filter]
  have hzsort : zs.Pairwise (· ≤ ·) := by
    rw [hzs, List.pairwise_map]
    refine hu.imp (fun {a b} hab => rint_mono ?_)
    exact mul_le_mul_of_nonneg_right hab.le (zpow_pos (by norm_num) _).le
  have hz0 := npDiff_nonneg_int zs hzsort
  have hR : ∀ p ∈ prices.take 10000, ∃ z ∈ zs, roundDecade e (round12 p) = (z : ℚ) * 10 ^ e := by
    intro p hp
    refine ⟨rint (round12 p * 10 ^ (-e)), ?_, rfl⟩
    rw [hzs]
    exact List.mem_map_of_mem ((hmem _).mpr (List.mem_map_of_mem hp))
  have hZ : ∀ z ∈ zs, ∃ p ∈ prices.take 10000, roundDecade e (round12 p) = (z : ℚ) * 10 ^ e := by
    intro z hz
    rw [hzs] at hz
    obtain ⟨v, hv, rfl⟩ := List.mem_map.mp hz
    obtain ⟨p, hp, rfl⟩ := List.mem_map.mp ((hmem _).mp hv)
    exact ⟨p, hp, rfl⟩
  have hcancel : ∀ a b : Int, (a : ℚ) * 10 ^ e = b * 10 ^ e → a = b := by
    intro a b h
    exact_mod_cast mul_right_cancel₀ hcpos.ne' h
  obtain ⟨ds, hds⟩ : ∃ ds, ds = (npDiff zs).filter (fun d => decide (0 < d)) := ⟨_, rfl⟩
  rw [← hds] at hval
  have hdspos : ∀ d ∈ ds, 0 < d := by
    intro d hd
    rw [hds] at hd
    simpa using (List.mem_filter.mp hd).2
  obtain ⟨⟨_, g1⟩, _, g3, g4⟩ := gcdLoop_spec ds 0 (le_refl _) hdspos
  have g1' : ∀ d ∈ npDiff zs, gcdLoop ds 0 ∣ d := by
    intro d hd
    rcases (hz0 d hd).lt_or_eq with h | h
    · exact g1 d (by rw [hds]; exact List.mem_filter.mpr ⟨hd, by simpa using h⟩)
    · rw [← h]; exact dvd_zero _
  constructor
  · intro hall
    have : ds = [] := by
      rw [hds, List.filter_eq_nil_iff]
      intro d hd
      obtain ⟨a, ha, b, hb, rfl⟩ := npDiff_mem_iff zs d hd
      obtain ⟨a', ha', e1⟩ := hZ a ha
      obtain ⟨b', hb', e2⟩ := hZ b hb
      have := hcancel a b (by rw [← e1, ← e2]; exact hall a' ha' b' hb')
      simp [this]
    rw [hval, this]
    simp [gcdLoop]
  · intro hnall
    have hdsne : ds ≠ [] := by
      intro hnil
      apply hnall
      have hzero : ∀ d ∈ npDiff zs, d = 0 := by
        intro d hd
        have h1 := hz0 d hd
        rw [hds, List.filter_eq_nil_iff] at hnil
        have := hnil d hd
        simp at this
        omega
      have hall := npDiff_closed (fun z : Int => z = 0) rfl (fun a b ha hb => by rw [ha, hb]; rfl)
        (fun a h => by rw [h]; rfl) zs hzero
      intro p hp q hq
      obtain ⟨a, ha, e1⟩ := hR p hp
      obtain ⟨b, hb, e2⟩ := hR q hq
      have := hall a ha b hb
      rw [e1, e2, show a = b by omega]
    rw [hval]
    generalize gcdLoop ds 0 = g at *
    have hgpos : (0 : ℚ) < g := by exact_mod_cast g3 (Or.inr hdsne)
    have hall := npDiff_closed (fun z : Int => g ∣ z) (dvd_zero _) (fun a b => dvd_add) (fun a h => (dvd_neg).mpr h) zs g1'
    refine ⟨mul_pos hgpos hcpos, ?_, ?_⟩
    · intro P hP Q hQ
      obtain ⟨p, hp, rfl⟩ := List.mem_map.mp hP
      obtain ⟨q, hq, rfl⟩ := List.mem_map.mp hQ
      obtain ⟨a, ha, e1⟩ := hR p hp
      obtain ⟨b, hb, e2⟩ := hR q hq
      obtain ⟨k, hk⟩ := hall a ha b hb
      refine ⟨k, ?_⟩
      rw [e1, e2]
      have : (b : ℚ) - a = g * k := by exact_mod_cast hk
      linear_combination 10 ^ e * this
    · intro d hd
      refine g4 (fun z => ∃ k : Int, (z : ℚ) * 10 ^ e = k * d) ?_ ⟨0, by simp⟩ ?_
      · rintro a b x y ⟨k, hk⟩ ⟨l, hl⟩
        refine ⟨k * x + l * y, ?_⟩
        push_cast
        linear_combination x * hk + y * hl
      · intro z hz
        rw [hds] at hz
        obtain ⟨a, ha, b, hb, rfl⟩ := npDiff_mem_iff zs z (List.mem_filter.mp hz).1
        obtain ⟨a', ha', e1⟩ := hZ a ha
        obtain ⟨b', hb', e2⟩ := hZ b hb
        obtain ⟨k, hk⟩ := hd _ (List.mem_map_of_mem ha') _ (List.mem_map_of_mem hb')
        refine ⟨k, ?_⟩
        rw [e1, e2] at hk
        push_cast
        linear_combination hk

/-- The decade of `C60_estimate_exact` exists as soon as two sampled prices differ; otherwise the estimate is zero
(`C60_degenerate`). -/
theorem C60_decade_exists (prices : List ℚ)
    (h : ∃ p ∈ prices.take 10000, ∃ q ∈ prices.take 10000, round12 p < round12 q) :
    ∃ e : Int,
      (∀ p ∈ prices.take 10000, ∀ q ∈ prices.take 10000, round12 p < round12 q → (10 : ℚ) ^ e ≤ round12 q - round12 p) ∧
      ∃ p ∈ prices.take 10000, ∃ q ∈ prices.take 10000, round12 p < round12 q ∧
        round12 q - round12 p < (10 : ℚ) ^ (e + 1) := by
  have hmem := mem_npUnique ((prices.take 10000).map round12)
  have hu := npUnique_sorted ((prices.take 10000).map round12)
  obtain ⟨u, hu'⟩ : ∃ u, u = npUnique ((prices.take 10000).map round12) := ⟨_, rfl⟩
  rw [← hu'] at hmem hu
  obtain ⟨p, hp, q, hq, hpq⟩ := h
  have hin : ∀ p ∈ prices.take 10000, round12 p ∈ u := fun p hp => (hmem _).mpr (List.mem_map_of_mem hp)
  obtain ⟨d₀, hd₀, -⟩ := exists_diff_le u hu _ (hin p hp) _ (hin q hq) hpq
  have hmm := minOf_mem _ (List.ne_nil_of_mem hd₀)
  have hpos := npDiff_pos u hu _ hmm
  refine ⟨Int.log 10 (minOf (npDiff u)), ?_, ?_⟩
  · intro p hp q hq hpq
    obtain ⟨d, hd, hle⟩ := exists_diff_le u hu _ (hin p hp) _ (hin q hq) hpq
    have h1 := (Int.zpow_le_iff_le_log (b := 10) (by norm_num) hpos).mpr (le_refl (Int.log 10 (minOf (npDiff u))))
    push_cast at h1
    exact le_trans h1 (le_trans (minOf_le _ d hd) hle)
  · obtain ⟨a, ha, b, hb, hab⟩ := npDiff_mem_iff u _ hmm
    obtain ⟨a', ha', rfl⟩ := List.mem_map.mp ((hmem _).mp ha)
    obtain ⟨b', hb', rfl⟩ := List.mem_map.mp ((hmem _).mp hb)
    have h1 := (Int.lt_zpow_iff_log_lt (b := 10) (by norm_num) hpos).mpr (Int.lt_succ (Int.log 10 (minOf (npDiff u))))
    push_cast at h1
    refine ⟨a', ha', b', hb', by linarith, ?_⟩
    rw [← hab]
    exact h1

/- Non-vacuity of C60_estimate_exact: on a quarter grid the decade is 0.1, the prices become 100, 100.2, 100.5 and the
estimate is their tick 0.1. -/
example : compTickSize [100, 401/4, 201/2] = .ok (1/10) ∧
    [100, 401/4, 201/2].map (fun p => roundDecade (-1) (round12 p)) = [100, 501/5, 201/2] := by decide +kernel

end FinML
