/-
C33: incremental rolling windows equal the windows computed from scratch (`ma.py` `sma`, `reversion.py` `vwap_distance`,
`volume.py` `comp_flow_acceleration` and `vpin`, `momentum.py` `stoch_k`, `volatility.py` `bollinger_percent_b`).
-/
import Verif.Lemmas.Indicators

set_option linter.unusedSectionVars false

namespace FinML

variable {K : Type} [Field K] [LinearOrder K] [IsStrictOrderedRing K]

/-- Sum of `x j` over the window of `w` positions ending at `i`. -/
def winSum (x : Nat → K) (w i : Nat) : K := ((List.range' (i + 1 - w) w).map x).sum

theorem rollSum_winSum (x : Nat → K) (w i : Nat) : rollSumState x w (i + 1 - w) = winSum x w i := rollSumState_eq x w _

/-! ## Simple moving average -/

/-- **C33.**  `sma` is NaN before position `w - 1` and the mean of the last `w` values from there on. -/
theorem C33_sma_mean (xs : List K) (w i : Nat) (hi : i < xs.length) :
    (sma xs w)[i]? = some (if i + 1 < w then none else some (winSum (fun j => xs.getD j 0) w i / (w : K))) := by
  unfold sma
  rw [rolling_get? _ _ _ _ hi]
  by_cases h : i + 1 < w
  · rw [if_pos h, if_pos h]
  · rw [if_neg h, if_neg h, window_eq_map xs 0 w i hi (by omega)]
    unfold winSum
    rw [one_div, inv_mul_eq_div]

example : sma [1, 2, 3, (6 : ℚ)] 2 = [none, some (3 / 2), some (5 / 2), some (9 / 2)] := by decide +kernel

/-! ## VWAP distance -/

/-- **C33.**  From position `np - 1` on, the VWAP distance uses exactly the sums over the last `np` bars; if the window has no
volume it repeats the previous output (NaN at the first position).  The first window always uses the simple distance. -/
theorem C33_vwap_distance_window (log : K → K) (close volume : List K) (np i : Nat) (isLog : Bool) (hnp : 1 ≤ np) (hi : i < close.length) :
    let W := winSum (fun j => close.getD j 0 * volume.getD j 0) np i
    let V := winSum (fun j => volume.getD j 0) np i
    let c := close.getD i 0
    (i + 1 < np → (vwapDistance log close volume np isLog)[i]? = some none) ∧
    (i + 1 = np → (vwapDistance log close volume np isLog)[i]? = some (if V > 0 then some (c / (W / V) - 1) else none)) ∧
    (np < i + 1 → V > 0 → (vwapDistance log close volume np isLog)[i]? =
      some (some (if isLog then log (c / (W / V)) else c / (W / V) - 1))) ∧
    (np < i + 1 → ¬ V > 0 → (vwapDistance log close volume np isLog)[i]? = (vwapDistance log close volume np isLog)[i - 1]?) := by
  intro W V c
  unfold vwapDistance
  rw [tabulate_get?, if_pos hi]
  refine ⟨fun h => by rw [if_pos h], ?_, ?_, ?_⟩
  · intro h
    rw [if_neg (by omega), show i + 1 - np = 0 by omega, vwapOut]
    have h0 : i + 1 - np = 0 := by omega
    have e1 := rollSum_winSum (fun j => close.getD j 0 * volume.getD j 0) np i
    have e2 := rollSum_winSum (fun j => volume.getD j 0) np i
    rw [h0] at e1 e2
    simp only [e1, e2]
    rw [show np - 1 = i by omega]
  · intro h hv
    obtain ⟨m, hm⟩ : ∃ m, i + 1 - np = m + 1 := ⟨i - np, by omega⟩
    rw [if_neg (by omega), hm, vwapOut]
    have e1 := rollSum_winSum (fun j => close.getD j 0 * volume.getD j 0) np i
    have e2 := rollSum_winSum (fun j => volume.getD j 0) np i
    rw [hm] at e1 e2
    simp only [e1, e2]
    rw [if_pos hv, show np + m = i by omega]
  · intro h hv
    obtain ⟨m, hm⟩ : ∃ m, i + 1 - np = m + 1 := ⟨i - np, by omega⟩
    rw [if_neg (by omega), hm, vwapOut]
    have e2 := rollSum_winSum (fun j => volume.getD j 0) np i
    rw [hm] at e2
    simp only [e2]
    rw [if_neg hv, tabulate_get?, if_pos (by omega), if_neg (by omega), show i - 1 + 1 - np = m by omega]

example : vwapDistance (fun x => x) [1, 2, (3 : ℚ)] [1, 1, 1] 2 false = [none, some (1 / 3), some (1 / 5)] := by decide +kernel

/-- **C33.**  The first VWAP distance ignores `is_log`: it is the simple distance, which is not the logarithm. -/
theorem C33_vwap_first_value_not_log (log : K → K) (hlog : ∀ x, 0 < x → x ≠ 1 → log x ≠ x - 1) :
    ∃ (close volume : List K) (np : Nat), (vwapDistance log close volume np true)[np - 1]? ≠
      some (some (log (close.getD (np - 1) 0 /
        (winSum (fun j => close.getD j 0 * volume.getD j 0) np (np - 1) / winSum (fun j => volume.getD j 0) np (np - 1))))) := by
  refine ⟨[1, 3], [1, 1], 2, ?_⟩
  have h := (C33_vwap_distance_window log ([1, 3] : List K) [1, 1] 2 1 true (by norm_num) (by norm_num)).2.1 rfl
  simp only [show (2 : Nat) - 1 = 1 by rfl] at h ⊢
  rw [h]
  have hW : winSum (fun j => ([1, 3] : List K).getD j 0 * ([1, 1] : List K).getD j 0) 2 1 = 4 := by
    simp [winSum, List.range']; norm_num
  have hV : winSum (fun j => ([1, 1] : List K).getD j 0) 2 1 = 2 := by
    simp [winSum, List.range']; norm_num
  rw [hW, hV, if_pos (by norm_num)]
  intro h
  injection h with h
  injection h with h
  refine hlog _ ?_ ?_ h.symm
  · simp
  · simp; norm_num

/-! ## Flow acceleration -/

/-- **C33.**  Flow acceleration is the log ratio of the volume of the last `r` bars to that of the `w - r` bars before them. -/
theorem C33_flow_acceleration_window (log : K → K) (eps : K) (v : List K) (w r i : Nat) (hr : r < w) (hn : w ≤ v.length)
    (hi : i < v.length) :
    (flowAcceleration log eps v w r)[i]? = some (if i + 1 < w then none
      else some (log ((winSum (fun j => v.getD j 0) r i + eps) / (winSum (fun j => v.getD j 0) (w - r) (i - r) + eps)))) := by
  unfold flowAcceleration
  rw [if_neg (by omega), tabulate_get?, if_pos hi]
  by_cases h : i + 1 < w
  · rw [if_pos h, if_pos h]
  · rw [if_neg h, if_neg h]
    have e1 := cumAt_sub (fun j => v.getD j 0) (i + 1 - r) r
    have e2 := cumAt_sub (fun j => v.getD j 0) (i + 1 - w) (w - r)
    rw [show i + 1 - r + r = i + 1 by omega] at e1
    rw [show i + 1 - w + (w - r) = i + 1 - r by omega] at e2
    simp only [e1, e2, winSum]
    rw [show i - r + 1 - (w - r) = i + 1 - w by omega]

example : 1 < 2 ∧ 2 ≤ ([1, 2, 3] : List ℚ).length ∧ flowAcceleration id 1 ([1, 2, 3] : List ℚ) 2 1 = [none, some (3 / 2), some (4 / 3)] := by
  decide +kernel

/-- **C33.**  Too little data, or a recent part not shorter than the window: all NaN. -/
theorem C33_flow_acceleration_short (log : K → K) (eps : K) (v : List K) (w r i : Nat) (h : v.length < w ∨ w ≤ r) (hi : i < v.length) :
    (flowAcceleration log eps v w r)[i]? = some none := by
  unfold flowAcceleration
  rw [if_pos (by omega), tabulate_get?, if_pos hi]

example : flowAcceleration (fun x => x) 0 [1, 2, 3, (4 : ℚ)] 3 1 = [none, none, some 1, some (4 / 5)] := by decide +kernel

/-! ## VPIN -/

theorem vpinTerm_some (f : K → K → K) (b s : List (Option K)) (i : Nat) (x y : K) (hx : b.getD i none = some x)
    (hy : s.getD i none = some y) : vpinTerm f b s i = f x y := by
  unfold vpinTerm; rw [hx, hy]

theorem vpinNan_some (b s : List (Option K)) (i : Nat) (x y : K) (hx : b.getD i none = some x)
    (hy : s.getD i none = some y) : vpinNan b s i = 0 := by
  unfold vpinNan; rw [hx, hy]

theorem vpinNan_none (b s : List (Option K)) (i : Nat) (h : b.getD i none = none ∨ s.getD i none = none) : vpinNan b s i = 1 := by
  unfold vpinNan
  rcases h with h | h
  · rw [h]
  · rw [h]; cases b.getD i none <;> rfl

/-- **C33.**  With `w` complete bars ending at `i`, VPIN is `Σ|buy - sell| / Σ(buy + sell)` over those bars when the total exceeds
the threshold, NaN otherwise. -/
theorem C33_vpin_window (eps : K) (b s : List (Option K)) (w i : Nat) (hi : i < b.length) (hw : w ≤ i + 1) (bv sv : Nat → K)
    (hb : ∀ j, i + 1 - w ≤ j → j ≤ i → b.getD j none = some (bv j)) (hs : ∀ j, i + 1 - w ≤ j → j ≤ i → s.getD j none = some (sv j)) :
    (vpin eps b s w)[i]? = some (if winSum (fun j => bv j + sv j) w i > eps then
      some (winSum (fun j => |bv j - sv j|) w i / winSum (fun j => bv j + sv j) w i) else none) := by
  unfold vpin
  simp only
  rw [tabulate_get?, if_pos hi]
  have hmem : ∀ j ∈ List.range' (i + 1 - w) w, i + 1 - w ≤ j ∧ j ≤ i := by
    intro j hj; rw [List.mem_range'_1] at hj; omega
  have key : ∀ f : K → K → K, cumAt (vpinTerm f b s) (i + 1) - cumAt (vpinTerm f b s) (i + 1 - w) =
      ((List.range' (i + 1 - w) w).map (fun j => f (bv j) (sv j))).sum := by
    intro f
    have e := cumAt_sub (vpinTerm f b s) (i + 1 - w) w
    rw [show i + 1 - w + w = i + 1 by omega] at e
    rw [e]
    congr 1
    apply List.map_congr_left
    intro j hj
    obtain ⟨h1, h2⟩ := hmem j hj
    exact vpinTerm_some f b s j _ _ (hb j h1 h2) (hs j h1 h2)
  have hnan : cumAt (vpinNan b s) (i + 1) - cumAt (vpinNan b s) (i + 1 - w) = 0 := by
    have e := cumAt_sub_nat (vpinNan b s) (i + 1 - w) w
    rw [show i + 1 - w + w = i + 1 by omega] at e
    have : ((List.range' (i + 1 - w) w).map (vpinNan b s)).sum = 0 := by
      rw [List.sum_eq_zero_iff]
      intro x hx
      obtain ⟨j, hj, rfl⟩ := List.mem_map.mp hx
      obtain ⟨h1, h2⟩ := hmem j hj
      exact vpinNan_some b s j _ _ (hb j h1 h2) (hs j h1 h2)
    omega
  rw [if_pos ⟨hw, hnan⟩, key, key, key]
  unfold winSum
  rw [List.sum_map_add]

example : (∀ j, 1 + 1 - 2 ≤ j → j ≤ 1 → ([some 3, some 1] : List (Option ℚ)).getD j none = some (if j = 0 then 3 else 1)) ∧
    vpin (1 / 100) ([some 3, some 1] : List (Option ℚ)) [some 1, some 1] 2 = [none, some (1 / 3)] := by
  refine ⟨?_, by decide +kernel⟩
  intro j _ hj
  rcases (by omega : j = 0 ∨ j = 1) with rfl | rfl <;> rfl

/-- **C33.**  VPIN is NaN before the first full window and whenever a bar of the window has a missing side. -/
theorem C33_vpin_nan (eps : K) (b s : List (Option K)) (w i : Nat) (hi : i < b.length)
    (h : i + 1 < w ∨ (w ≤ i + 1 ∧ ∃ j, i + 1 - w ≤ j ∧ j ≤ i ∧ (b.getD j none = none ∨ s.getD j none = none))) :
    (vpin eps b s w)[i]? = some none := by
  unfold vpin
  simp only
  rw [tabulate_get?, if_pos hi]
  rcases h with h | ⟨hw, j, h1, h2, hj⟩
  · rw [if_neg (by omega)]
  · rw [if_neg]
    rintro ⟨-, hz⟩
    have e := cumAt_sub_nat (vpinNan b s) (i + 1 - w) w
    rw [show i + 1 - w + w = i + 1 by omega] at e
    have hsum : ((List.range' (i + 1 - w) w).map (vpinNan b s)).sum = 0 := by omega
    rw [List.sum_eq_zero_iff] at hsum
    have := hsum (vpinNan b s j) (List.mem_map.mpr ⟨j, by rw [List.mem_range'_1]; omega, rfl⟩)
    rw [vpinNan_none b s j hj] at this
    exact absurd this (by norm_num)

example : vpin 0 [some 1, some 3, none, some (1 : ℚ)] [some 1, some 1, some 1, some 1] 2 = [none, some (1 / 3), none, none] := by
  decide +kernel

/-! ## Stochastic oscillator -/

/-- `m` is the minimum of `f` on positions `a, …, b`. -/
def IsMinOn (f : Nat → K) (a b : Nat) (m : K) : Prop := (∃ j, a ≤ j ∧ j ≤ b ∧ f j = m) ∧ ∀ j, a ≤ j → j ≤ b → m ≤ f j

/-- `m` is the maximum of `f` on positions `a, …, b`. -/
def IsMaxOn (f : Nat → K) (a b : Nat) (m : K) : Prop := (∃ j, a ≤ j ∧ j ≤ b ∧ f j = m) ∧ ∀ j, a ≤ j → j ≤ b → f j ≤ m

theorem npMin_window (xs : List K) (w i : Nat) (hw0 : 1 ≤ w) (hi : i < xs.length) (hw : w ≤ i + 1) :
    IsMinOn (fun j => xs.getD j 0) (i + 1 - w) i (npMin (window xs w i)) := by
  have hne : window xs w i ≠ [] := by
    intro h; have := window_length xs w i hi hw; rw [h] at this; simp at this; omega
  obtain ⟨h1, h2⟩ := npMin_spec _ hne
  exact ⟨(mem_window xs 0 w i hi hw _).mp h1, fun j ha hb => h2 _ ((mem_window xs 0 w i hi hw _).mpr ⟨j, ha, hb, rfl⟩)⟩

theorem npMax_window (xs : List K) (w i : Nat) (hw0 : 1 ≤ w) (hi : i < xs.length) (hw : w ≤ i + 1) :
    IsMaxOn (fun j => xs.getD j 0) (i + 1 - w) i (npMax (window xs w i)) := by
  have hne : window xs w i ≠ [] := by
    intro h; have := window_length xs w i hi hw; rw [h] at this; simp at this; omega
  obtain ⟨h1, h2⟩ := npMax_spec _ hne
  exact ⟨(mem_window xs 0 w i hi hw _).mp h1, fun j ha hb => h2 _ ((mem_window xs 0 w i hi hw _).mpr ⟨j, ha, hb, rfl⟩)⟩

theorem IsMinOn.slide (f : Nat → K) (a b : Nat) (m : K) (h : IsMinOn f a b m) (hout : f a ≠ m) (hab : a ≤ b) :
    IsMinOn f (a + 1) (b + 1) (min m (f (b + 1))) := by
  obtain ⟨⟨j, h1, h2, h3⟩, hle⟩ := h
  constructor
  · rcases min_choice m (f (b + 1)) with hm | hm
    · refine ⟨j, ?_, by omega, by rw [hm, h3]⟩
      rcases Nat.eq_or_lt_of_le h1 with h | h
      · subst h; exact absurd h3 hout
      · exact h
    · exact ⟨b + 1, by omega, le_refl _, hm.symm⟩
  · intro k hk1 hk2
    rcases Nat.eq_or_lt_of_le hk2 with h | h
    · rw [h]; exact min_le_right _ _
    · exact le_trans (min_le_left _ _) (hle k (by omega) (by omega))

theorem IsMaxOn.slide (f : Nat → K) (a b : Nat) (m : K) (h : IsMaxOn f a b m) (hout : f a ≠ m) (hab : a ≤ b) :
    IsMaxOn f (a + 1) (b + 1) (max m (f (b + 1))) := by
  obtain ⟨⟨j, h1, h2, h3⟩, hle⟩ := h
  constructor
  · rcases max_choice m (f (b + 1)) with hm | hm
    · refine ⟨j, ?_, by omega, by rw [hm, h3]⟩
      rcases Nat.eq_or_lt_of_le h1 with h | h
      · subst h; exact absurd h3 hout
      · exact h
    · exact ⟨b + 1, by omega, le_refl _, hm.symm⟩
  · intro k hk1 hk2
    rcases Nat.eq_or_lt_of_le hk2 with h | h
    · rw [h]; exact le_max_right _ _
    · exact le_trans (hle k (by omega) (by omega)) (le_max_left _ _)

/-- **C33.**  The incrementally maintained extremes are the minimum low and the maximum high of the last `len` bars. -/
theorem C33_stoch_extremes (low high : List K) (len m : Nat) (hlen : 1 ≤ len) (hl : len + m ≤ low.length) (hh : len + m ≤ high.length) :
    IsMinOn (fun j => low.getD j 0) m (len - 1 + m) (stochState low high len m).1 ∧
    IsMaxOn (fun j => high.getD j 0) m (len - 1 + m) (stochState low high len m).2 := by
  induction m with
  | zero =>
    have h1 := npMin_window low len (len - 1) hlen (by omega) (by omega)
    have h2 := npMax_window high len (len - 1) hlen (by omega) (by omega)
    rw [show len - 1 + 1 - len = 0 by omega] at h1 h2
    exact ⟨h1, h2⟩
  | succ m ih =>
    obtain ⟨i1, i2⟩ := ih (by omega) (by omega)
    rw [stochState]
    rw [show len + m - len = m by omega]
    have e : len - 1 + (m + 1) = len + m := by omega
    rw [e]
    split
    · have h1 := npMin_window low len (len + m) hlen (by omega) (by omega)
      have h2 := npMax_window high len (len + m) hlen (by omega) (by omega)
      rw [show len + m + 1 - len = m + 1 by omega] at h1 h2
      exact ⟨h1, h2⟩
    · rename_i hne
      rw [not_or] at hne
      have e' : len - 1 + m + 1 = len + m := by omega
      have h1 := IsMinOn.slide _ _ _ _ i1 hne.1 (by omega)
      have h2 := IsMaxOn.slide _ _ _ _ i2 hne.2 (by omega)
      rw [e'] at h1 h2
      exact ⟨h1, h2⟩

example : 2 + 1 ≤ ([3, 1, 2] : List ℚ).length ∧ stochState ([3, 1, 2] : List ℚ) [4, 6, 5] 2 1 = (1, 6) := by decide +kernel

/-- **C33.**  %K is NaN before position `len - 1`, and `100 (close - lo)/(hi - lo)` with the extremes of the last `len` bars from
there on (NaN if they coincide). -/
theorem C33_stoch_window (close low high : List K) (len t : Nat) (hlen : 1 ≤ len) (ht : t < close.length)
    (hl : low.length = close.length) (hh : high.length = close.length) :
    (t + 1 < len → (stochK close low high len)[t]? = some none) ∧
    (len ≤ t + 1 → ∀ lo hi, IsMinOn (fun j => low.getD j 0) (t + 1 - len) t lo → IsMaxOn (fun j => high.getD j 0) (t + 1 - len) t hi →
      (stochK close low high len)[t]? = some (if hi > lo then some (100 * (close.getD t 0 - lo) / (hi - lo)) else none)) := by
  unfold stochK
  rw [tabulate_get?, if_pos ht]
  refine ⟨fun h => by rw [if_pos h], ?_⟩
  intro h lo hi hlo hhi
  rw [if_neg (by omega)]
  obtain ⟨h1, h2⟩ := C33_stoch_extremes low high len (t + 1 - len) hlen (by omega) (by omega)
  rw [show len - 1 + (t + 1 - len) = t by omega] at h1 h2
  have e1 : (stochState low high len (t + 1 - len)).1 = lo := by
    obtain ⟨⟨j, a1, a2, a3⟩, a4⟩ := h1
    obtain ⟨⟨k, b1, b2, b3⟩, b4⟩ := hlo
    apply le_antisymm
    · rw [← b3]; exact a4 k b1 b2
    · rw [← a3]; exact b4 j a1 a2
  have e2 : (stochState low high len (t + 1 - len)).2 = hi := by
    obtain ⟨⟨j, a1, a2, a3⟩, a4⟩ := h2
    obtain ⟨⟨k, b1, b2, b3⟩, b4⟩ := hhi
    apply le_antisymm
    · rw [← a3]; exact b4 j a1 a2
    · rw [← b3]; exact a4 k b1 b2
  unfold stochVal
  rw [e1, e2]

example : stochK [2, 3, 1, (4 : ℚ)] [1, 2, 0, 3] [3, 4, 2, 5] 2 = [none, some (200 / 3), some 25, some 80] := by decide +kernel

/-! ## Bollinger %B -/

theorem winSum_sq_dev (x : Nat → K) (w i : Nat) (c : K) :
    winSum (fun j => (x j - c) ^ 2) w i = winSum (fun j => x j ^ 2) w i - 2 * c * winSum x w i + (w : K) * c ^ 2 := by
  unfold winSum
  have : ∀ l : List Nat, (l.map (fun j => (x j - c) ^ 2)).sum = (l.map (fun j => x j ^ 2)).sum - 2 * c * (l.map x).sum + (l.length : K) * c ^ 2 := by
    intro l
    induction l with
    | nil => simp
    | cons a t ih =>
      simp only [List.map_cons, List.sum_cons, List.length_cons, Nat.cast_add, Nat.cast_one]
      rw [ih]; ring
  rw [this, List.length_range']

/-- **C33.**  %B computed from the rolling sums is the position of the close within `mean ± numStd · sd`, with the mean and the
sample standard deviation of the last `w` closes computed from scratch. -/
theorem C33_bollinger_window (sqrt : K → K) (close : List K) (w i : Nat) (numStd : K) (hw : 2 ≤ w) (hi : i < close.length) :
    (bollingerB sqrt close w numStd)[i]? = some (if i + 1 < w then none else
      (let mean := winSum (fun j => close.getD j 0) w i / (w : K)
       let sd := sqrt (winSum (fun j => (close.getD j 0 - mean) ^ 2) w i / ((w : K) - 1))
       if numStd * sd > 0 then some ((close.getD i 0 - (mean - numStd * sd)) / (2 * (numStd * sd))) else none)) := by
  unfold bollingerB
  rw [tabulate_get?, if_pos hi]
  by_cases h : i + 1 < w
  · rw [if_pos h, if_pos h]
  rw [if_neg h, if_neg h, rollSum_winSum, rollSum_winSum]
  simp only
  have hw0 : (w : K) ≠ 0 := by exact_mod_cast (by omega : w ≠ 0)
  have hw1 : (0 : K) < (w : K) - 1 := by
    have : (2 : K) ≤ (w : K) := by exact_mod_cast hw
    linarith
  have hdev := winSum_sq_dev (fun j => close.getD j 0) w i (winSum (fun j => close.getD j 0) w i / (w : K))
  have hnn : 0 ≤ winSum (fun j => (close.getD j 0 - winSum (fun j => close.getD j 0) w i / (w : K)) ^ 2) w i := by
    unfold winSum
    exact sum_map_nonneg _ _ (fun j _ => sq_nonneg _)
  unfold bollingerVal
  simp only
  have hvar : winSum (fun j => close.getD j 0 ^ 2) w i -
      (w : K) * (winSum (fun j => close.getD j 0) w i / (w : K)) * (winSum (fun j => close.getD j 0) w i / (w : K)) =
      winSum (fun j => (close.getD j 0 - winSum (fun j => close.getD j 0) w i / (w : K)) ^ 2) w i := by
    rw [hdev]
    field_simp
    ring
  rw [hvar, max_eq_left (div_nonneg hnn hw1.le)]
  generalize winSum (fun j => close.getD j 0) w i / (w : K) = mean
  generalize sqrt (winSum (fun j => (close.getD j 0 - mean) ^ 2) w i / ((w : K) - 1)) = sd
  have e : mean + numStd * sd - (mean - numStd * sd) = 2 * (numStd * sd) := by ring
  rw [e]
  congr 1
  by_cases hp : numStd * sd > 0
  · rw [if_pos hp, if_pos (by linarith)]
  · rw [if_neg hp, if_neg (fun hc => hp (by linarith [show mean - numStd * sd < mean + numStd * sd from hc]))]

example : bollingerB (fun _ => 1) [1, 2, 3, (6 : ℚ)] 3 2 = [none, none, some (3 / 4), some (13 / 12)] := by decide +kernel

end FinML
