/-
C165: the rows of a bar made of two consecutive bars, in terms of the rows of the two bars.
`finmlkit/bar/base.py:comp_bar_ohlcv`, `comp_bar_directional_features`, `comp_bar_footprints`.
-/
import Verif.Props.Directional
import Verif.Props.Footprint

set_option linter.unusedSectionVars false

namespace FinML

variable {K : Type} [Field K] [LinearOrder K] [IsStrictOrderedRing K]

/-! ## Helpers -/

theorem idxRange_join (a b c : Int) (hab : a ≤ b) (hbc : b ≤ c) :
    idxRange (a + 1) c = idxRange (a + 1) b ++ idxRange (b + 1) c := by
  apply List.ext_getElem
  · simp only [List.length_append, idxRange_length]; omega
  · intro i h1 h2
    rw [List.getElem_append]
    split
    · rw [idxRange_getElem, idxRange_getElem]
    · rename_i h
      rw [idxRange_getElem, idxRange_getElem]
      rw [idxRange_length] at h ⊢
      omega

theorem foldl_max_comm {M : Type} [LinearOrder M] (L : List M) (x y : M) :
    L.foldl max (max x y) = max x (L.foldl max y) := by
  induction L generalizing y with
  | nil => rfl
  | cons z L ih => rw [List.foldl_cons, List.foldl_cons, max_assoc, ih]

theorem foldl_min_comm {M : Type} [LinearOrder M] (L : List M) (x y : M) :
    L.foldl min (min x y) = min x (L.foldl min y) := by
  induction L generalizing y with
  | nil => rfl
  | cons z L ih => rw [List.foldl_cons, List.foldl_cons, min_assoc, ih]

theorem foldl_max_restart {M : Type} [LinearOrder M] (L : List M) (m m0 : M) (h : m0 < L.foldl max m0) :
    L.foldl max m = max m (L.foldl max m0) := by
  have h1 := foldl_max_comm L m m0
  have h2 := foldl_max_comm L m0 m
  rw [max_comm m0 m, h1] at h2
  rcases le_or_gt m0 (L.foldl max m) with h3 | h3
  · rw [h2, max_eq_right h3]
  · rw [max_eq_left h3.le] at h2
    exact absurd (le_trans (le_max_right _ _) h2.le) (not_le.mpr h)

theorem foldl_min_restart {M : Type} [LinearOrder M] (L : List M) (m m0 : M) (h : L.foldl min m0 < m0) :
    L.foldl min m = min m (L.foldl min m0) := by
  have h1 := foldl_min_comm L m m0
  have h2 := foldl_min_comm L m0 m
  rw [min_comm m0 m, h1] at h2
  rcases le_or_gt (L.foldl min m) m0 with h3 | h3
  · rw [h2, min_eq_right h3]
  · rw [min_eq_left h3.le] at h2
    exact absurd (le_trans h2.ge (min_le_right _ _)) (not_le.mpr h)

section shift
variable {M : Type} [AddCommGroup M] [LinearOrder M] [IsOrderedAddMonoid M]

theorem foldl_max_shift (L : List M) (c m : M) : (L.map (c + ·)).foldl max (c + m) = c + L.foldl max m := by
  induction L generalizing m with
  | nil => rfl
  | cons x L ih => rw [List.map_cons, List.foldl_cons, List.foldl_cons, ← ih, max_add_add_left]

theorem foldl_min_shift (L : List M) (c m : M) : (L.map (c + ·)).foldl min (c + m) = c + L.foldl min m := by
  induction L generalizing m with
  | nil => rfl
  | cons x L ih => rw [List.map_cons, List.foldl_cons, List.foldl_cons, ← ih, min_add_add_left]

theorem prefixSums_shift (c d : M) (xs : List M) : prefixSums (c + d) xs = (prefixSums d xs).map (c + ·) := by
  induction xs generalizing d with
  | nil => rfl
  | cons x xs ih => rw [prefixSums, prefixSums, List.map_cons, ← ih, add_assoc]

/-- The running maximum of a path continued from the level `c` against that of the path started afresh. -/
theorem path_max_join (xs : List M) (c m m0 : M) (h : m0 < (prefixSums 0 xs).foldl max m0) :
    (prefixSums c xs).foldl max m = max m (c + (prefixSums 0 xs).foldl max m0) := by
  have e : prefixSums c xs = (prefixSums 0 xs).map (c + ·) := by
    have := prefixSums_shift c 0 xs
    rwa [add_zero] at this
  rw [e, ← foldl_max_shift]
  apply foldl_max_restart
  rw [foldl_max_shift]
  exact add_lt_add_right h c

theorem path_min_join (xs : List M) (c m m0 : M) (h : (prefixSums 0 xs).foldl min m0 < m0) :
    (prefixSums c xs).foldl min m = min m (c + (prefixSums 0 xs).foldl min m0) := by
  have e : prefixSums c xs = (prefixSums 0 xs).map (c + ·) := by
    have := prefixSums_shift c 0 xs
    rwa [add_zero] at this
  rw [e, ← foldl_min_shift]
  apply foldl_min_restart
  rw [foldl_min_shift]
  exact add_lt_add_right h c

end shift

/-- The running imbalances of the inner loop are the differences of its buy and sell totals. -/
theorem dir_fold_cum (l : List (DirTick K)) (s : DirAcc K) (h1 : s.cumTicks = s.ticksBuy - s.ticksSell)
    (h2 : s.cumVol = s.volBuy - s.volSell) (h3 : s.cumDol = s.dolBuy - s.dolSell) :
    let r := l.foldl dirStep s
    r.cumTicks = r.ticksBuy - r.ticksSell ∧ r.cumVol = r.volBuy - r.volSell ∧ r.cumDol = r.dolBuy - r.dolSell := by
  induction l generalizing s with
  | nil => exact ⟨h1, h2, h3⟩
  | cons t l ih =>
    obtain ⟨f1, f2, f3, f4, f5, f6, f7, f8, f9, f10, f11, f12, f13, f14, f15⟩ := dirSpread_fields s t
    apply ih
    all_goals
      simp only [dirStep]
      split
      · simp only [dirExtremes, f1, f2, f3, f4, f5, f6, f7, f8, f9, h1, h2, h3]; ring
      · split
        · simp only [dirExtremes, f1, f2, f3, f4, f5, f6, f7, f8, f9, h1, h2, h3]; ring
        · simp only [f1, f2, f3, f4, f5, f6, f7, f8, f9, h1, h2, h3]

/-- The remembered side after a non-empty run of trades is the side of its last trade. -/
theorem dir_fold_prev (l : List (DirTick K)) (s : DirAcc K) (t : DirTick K) :
    ((l ++ [t]).foldl dirStep s).prevSign = t.side := by
  rw [List.foldl_append, List.foldl_cons, List.foldl_nil]
  generalize l.foldl dirStep s = r
  have h : (dirSpread r t).prevSign = t.side := by
    unfold dirSpread; split <;> rfl
  simp only [dirStep]
  split
  · exact h
  · split
    · exact h
    · exact h

/-- The spread part of the loop only depends on the remembered side. -/
theorem dir_fold_spread_join (l : List (DirTick K)) (s s2 : DirAcc K) (S D : K)
    (hp : s.prevSign = s2.prevSign) (hm : s.maxSpread = max S s2.maxSpread) (hc : s.cumSpread = D + s2.cumSpread) :
    (l.foldl dirStep s).maxSpread = max S (l.foldl dirStep s2).maxSpread ∧
    (l.foldl dirStep s).cumSpread = D + (l.foldl dirStep s2).cumSpread := by
  have hstep : ∀ (s : DirAcc K) (t : DirTick K), (dirStep s t).prevSign = t.side ∧
      (dirStep s t).maxSpread = (dirSpread s t).maxSpread ∧ (dirStep s t).cumSpread = (dirSpread s t).cumSpread := by
    intro s t
    have h : (dirSpread s t).prevSign = t.side := by
      unfold dirSpread; split <;> rfl
    simp only [dirStep]
    split
    · exact ⟨h, rfl, rfl⟩
    · split
      · exact ⟨h, rfl, rfl⟩
      · exact ⟨h, rfl, rfl⟩
  have hmax : ∀ x y : K, (if x > y then x else y) = max y x := by
    intro x y
    split
    · rename_i h; rw [max_eq_right h.le]
    · rename_i h; rw [max_eq_left (not_lt.mp h)]
  induction l generalizing s s2 with
  | nil => exact ⟨hm, hc⟩
  | cons t l ih =>
    obtain ⟨p1, m1, c1⟩ := hstep s t
    obtain ⟨p2, m2, c2⟩ := hstep s2 t
    apply ih
    · rw [p1, p2]
    · rw [m1, m2]
      unfold dirSpread
      rw [hp]
      split
      · simp only [hmax, hm, max_assoc]
      · exact hm
    · rw [c1, c2]
      unfold dirSpread
      rw [hp]
      split
      · simp only [hc, add_assoc]
      · exact hc

theorem dirTicks_join (prices volumes : List K) (sides : List Int) (a b c : Int) (hab : a ≤ b) (hbc : b ≤ c) :
    dirTicks prices volumes sides a c = dirTicks prices volumes sides a b ++ dirTicks prices volumes sides b c := by
  unfold dirTicks
  rw [idxRange_join a b c hab hbc, List.map_append]

theorem idxRange_snoc (a b : Int) (h : a ≤ b) : idxRange a b = idxRange a (b - 1) ++ [b] := by
  have := idxRange_join (a - 1) (b - 1) b (by omega) (by omega)
  rw [show a - 1 + 1 = a by ring, show b - 1 + 1 = b by ring] at this
  rw [this]
  congr 1
  simp [idxRange]

/-! ## C165 -/

/-- **C165 (prices and volumes).** Joining two consecutive non-empty bars: the open is the first bar's, the close
the second's, high and low are the larger and the smaller of the two, volume and trade count add up, and, for
non-negative volumes, so does VWAP times volume. -/
theorem C165_ohlcv (prices volumes : List K) (a b c : Int) (hl : prices.length = volumes.length)
    (ha : -1 ≤ a) (hab : a < b) (hbc : b < c) (hc : c < prices.length) :
    let one := ohlcvBar prices volumes a b
    let two := ohlcvBar prices volumes b c
    let all := ohlcvBar prices volumes a c
    all.opn = one.opn ∧ all.close = two.close ∧ all.high = max one.high two.high ∧ all.low = min one.low two.low ∧
    all.volume = one.volume + two.volume ∧ all.trades = one.trades + two.trades ∧
    ((∀ v ∈ volumes, 0 ≤ v) → all.vwap * all.volume = one.vwap * one.volume + two.vwap * two.volume) := by
  intro one two all
  have h1 := ohlcvBar_nonempty prices volumes a b hl ha hab (by omega)
  have h2 := ohlcvBar_nonempty prices volumes b c hl (by omega) hbc hc
  have h3 := ohlcvBar_nonempty prices volumes a c hl ha (by omega) hc
  have ep := sliceAfter_append prices a b c ha hab.le hbc.le
  have ev := sliceAfter_append volumes a b c ha hab.le hbc.le
  have l1 := sliceAfter_length prices a b ha hab.le (by omega)
  have l2 := sliceAfter_length volumes a b ha hab.le (by omega)
  have l3 := sliceAfter_length prices b c (by omega) hbc.le hc
  have l4 := sliceAfter_length volumes b c (by omega) hbc.le (by omega)
  rw [← ep, ← ev] at h3
  refine ⟨?_, ?_, ?_, ?_, ?_, ?_, ?_⟩
  · have := h3.opn
    rw [List.head?_append, h1.opn] at this
    exact (Option.some.inj this).symm
  · have := h3.close
    rw [List.getLast?_append, h2.close] at this
    exact (Option.some.inj this).symm
  · apply le_antisymm
    · rcases List.mem_append.mp h3.high_mem with h | h
      · exact le_trans (h1.high_max _ h) (le_max_left _ _)
      · exact le_trans (h2.high_max _ h) (le_max_right _ _)
    · exact max_le (h3.high_max _ (List.mem_append_left _ h1.high_mem))
        (h3.high_max _ (List.mem_append_right _ h2.high_mem))
  · apply le_antisymm
    · exact le_min (h3.low_min _ (List.mem_append_left _ h1.low_mem))
        (h3.low_min _ (List.mem_append_right _ h2.low_mem))
    · rcases List.mem_append.mp h3.low_mem with h | h
      · exact le_trans (min_le_left _ _) (h1.low_min _ h)
      · exact le_trans (min_le_right _ _) (h2.low_min _ h)
  · show (ohlcvBar prices volumes a c).volume = _
    rw [h3.volume, List.sum_append, ← h1.volume, ← h2.volume]
  · show (ohlcvBar prices volumes a c).trades = _
    rw [h3.trades, List.length_append, Nat.cast_add, ← h1.trades, ← h2.trades]
  · intro hv
    have key : ∀ (ps vs : List K) (bar : Ohlcv K), IsOhlcvOf ps vs bar → (∀ v ∈ vs, 0 ≤ v) →
        bar.vwap * bar.volume = (List.zipWith (· * ·) ps vs).sum := by
      intro ps vs bar h hn
      rw [h.volume]
      rcases (List.sum_nonneg hn).lt_or_eq with hp | hz
      · exact h.vwap hp
      · rw [← hz, mul_zero]
        have hall : ∀ v ∈ vs, v = 0 := by
          intro v hvm
          exact le_antisymm (le_trans (List.single_le_sum hn v hvm) hz.ge) (hn v hvm)
        symm
        apply List.sum_eq_zero
        intro x hx
        rw [← List.map_uncurry_zip_eq_zipWith, List.mem_map] at hx
        obtain ⟨t, ht, rfl⟩ := hx
        obtain ⟨p, v⟩ := t
        have := hall v (List.of_mem_zip ht).2
        simp [Function.uncurry, this]
    have hsub : ∀ i j : Int, ∀ v ∈ sliceAfter volumes i j, 0 ≤ v := by
      intro i j v hvm
      exact hv v (List.mem_of_mem_drop (List.mem_of_mem_take hvm))
    have k1 := key _ _ _ h1 (hsub a b)
    have k2 := key _ _ _ h2 (hsub b c)
    have k3 := key _ _ _ h3 (by rw [ev]; exact hsub a c)
    rw [List.zipWith_append (by omega), List.sum_append, ← k1, ← k2] at k3
    exact k3

/-- **C165 (median trade size).** The median trade size of the joined bar is not a function of the two medians. -/
theorem C165_median_not_determined :
    (ohlcvBar ([5, 5, 5, 5] : List ℚ) [1, 2, 9, 4] (-1) 2).median = 2 ∧
    (ohlcvBar ([5, 5, 5, 5] : List ℚ) [1, 2, 3, 4] (-1) 2).median = 2 ∧
    (ohlcvBar ([5, 5, 5, 5] : List ℚ) [1, 2, 9, 4] 2 3).median = (ohlcvBar ([5, 5, 5, 5] : List ℚ) [1, 2, 3, 4] 2 3).median ∧
    (ohlcvBar ([5, 5, 5, 5] : List ℚ) [1, 2, 9, 4] (-1) 3).median = 3 ∧
    (ohlcvBar ([5, 5, 5, 5] : List ℚ) [1, 2, 3, 4] (-1) 3).median = 5 / 2 := by
  refine ⟨?_, ?_, ?_, ?_, ?_⟩ <;> decide +kernel

example : let p : List ℚ := [5, 7, 4, 6]; let v : List ℚ := [1, 2, 3, 4]
    (ohlcvBar p v (-1) 3).opn = 5 ∧ (ohlcvBar p v (-1) 3).high = 7 ∧ (ohlcvBar p v (-1) 3).low = 4 ∧
    (ohlcvBar p v (-1) 3).close = 6 ∧ (ohlcvBar p v (-1) 1).volume = 3 ∧ (ohlcvBar p v 1 3).volume = 7 ∧
    (ohlcvBar p v (-1) 3).volume = 10 := by decide +kernel

/-- **C165 (buys and sells).** Trades, volume and dollars of the buys and of the sells add up. -/
theorem C165_split (prices volumes : List K) (sides : List Int) (a b c : Int) (hab : a ≤ b) (hbc : b ≤ c) :
    let one := dirBar prices volumes sides a b
    let two := dirBar prices volumes sides b c
    let all := dirBar prices volumes sides a c
    all.ticksBuy = one.ticksBuy + two.ticksBuy ∧ all.ticksSell = one.ticksSell + two.ticksSell ∧
    all.volBuy = one.volBuy + two.volBuy ∧ all.volSell = one.volSell + two.volSell ∧
    all.dolBuy = one.dolBuy + two.dolBuy ∧ all.dolSell = one.dolSell + two.dolSell := by
  intro one two all
  obtain ⟨x1, x2, x3, x4, x5, x6, _⟩ := dir_fold (dirTicks prices volumes sides a b)
    (dirInit (if b > a + 1 then pyGet sides 0 a else 0))
  obtain ⟨y1, y2, y3, y4, y5, y6, _⟩ := dir_fold (dirTicks prices volumes sides b c)
    (dirInit (if c > b + 1 then pyGet sides 0 b else 0))
  obtain ⟨z1, z2, z3, z4, z5, z6, _⟩ := dir_fold (dirTicks prices volumes sides a c)
    (dirInit (if c > a + 1 then pyGet sides 0 a else 0))
  simp only [one, two, all, dirBar_eq]
  rw [x1, x2, x3, x4, x5, x6, y1, y2, y3, y4, y5, y6, z1, z2, z3, z4, z5, z6, dirTicks_join _ _ _ a b c hab hbc]
  simp only [ofSide, List.map_append, List.filter_append, List.length_append, List.sum_append, dirInit]
  push_cast
  refine ⟨?_, ?_, ?_, ?_, ?_, ?_⟩ <;> ring

example : let p : List ℚ := [5, 7, 4, 6, 5]; let v : List ℚ := [1, 2, 3, 4, 1]; let s : List Int := [1, -1, -1, 1, 1]
    (dirBar p v s 0 1).volSell = 2 ∧ (dirBar p v s 1 4).volSell = 3 ∧ (dirBar p v s 0 4).volSell = 5 ∧
    (dirBar p v s 1 4).dolBuy = 29 ∧ (dirBar p v s 0 4).dolBuy = 29 := by decide +kernel

/-- **C165 (extremes of the running imbalance).** Where the second bar's extreme is not the initial value `±1e9`,
the extreme of the joined bar is that of the first bar or the first bar's total imbalance plus that of the second,
for trades, volume and dollars alike. -/
theorem C165_extremes (prices volumes : List K) (sides : List Int) (a b c : Int) (hab : a ≤ b) (hbc : b ≤ c) :
    let one := dirBar prices volumes sides a b
    let two := dirBar prices volumes sides b c
    let all := dirBar prices volumes sides a c
    (two.cumTicksMin < 1000000000 →
      all.cumTicksMin = min one.cumTicksMin (one.ticksBuy - one.ticksSell + two.cumTicksMin)) ∧
    (-1000000000 < two.cumTicksMax →
      all.cumTicksMax = max one.cumTicksMax (one.ticksBuy - one.ticksSell + two.cumTicksMax)) ∧
    (two.cumVolMin < 1000000000 →
      all.cumVolMin = min one.cumVolMin (one.volBuy - one.volSell + two.cumVolMin)) ∧
    (-1000000000 < two.cumVolMax →
      all.cumVolMax = max one.cumVolMax (one.volBuy - one.volSell + two.cumVolMax)) ∧
    (two.cumDolMin < 1000000000 →
      all.cumDolMin = min one.cumDolMin (one.dolBuy - one.dolSell + two.cumDolMin)) ∧
    (-1000000000 < two.cumDolMax →
      all.cumDolMax = max one.cumDolMax (one.dolBuy - one.dolSell + two.cumDolMax)) := by
  intro one two all
  have hpfx : ∀ (l : List (DirTick K)) (p q : Int),
      (l.foldl dirStep (dirInit p)).cumTicksMin = (l.foldl dirStep (dirInit q)).cumTicksMin ∧
      (l.foldl dirStep (dirInit p)).cumTicksMax = (l.foldl dirStep (dirInit q)).cumTicksMax ∧
      (l.foldl dirStep (dirInit p)).cumVolMin = (l.foldl dirStep (dirInit q)).cumVolMin ∧
      (l.foldl dirStep (dirInit p)).cumVolMax = (l.foldl dirStep (dirInit q)).cumVolMax ∧
      (l.foldl dirStep (dirInit p)).cumDolMin = (l.foldl dirStep (dirInit q)).cumDolMin ∧
      (l.foldl dirStep (dirInit p)).cumDolMax = (l.foldl dirStep (dirInit q)).cumDolMax := by
    intro l p q
    obtain ⟨_, _, _, _, _, _, x7, x8, x9, x10, x11, x12⟩ := dir_fold l (dirInit p)
    obtain ⟨_, _, _, _, _, _, y7, y8, y9, y10, y11, y12⟩ := dir_fold l (dirInit q)
    rw [x7, x8, x9, x10, x11, x12, y7, y8, y9, y10, y11, y12]
    exact ⟨rfl, rfl, rfl, rfl, rfl, rfl⟩
  obtain ⟨k1, k2, k3⟩ := dir_fold_cum (dirTicks prices volumes sides a b)
    (dirInit (if b > a + 1 then pyGet sides 0 a else 0)) (by simp [dirInit]) (by simp [dirInit]) (by simp [dirInit])
  set s1 := (dirTicks prices volumes sides a b).foldl dirStep
    (dirInit (if b > a + 1 then pyGet sides 0 a else 0)) with hs1
  obtain ⟨_, _, _, _, _, _, y7, y8, y9, y10, y11, y12⟩ := dir_fold (dirTicks prices volumes sides b c)
    (dirInit (if c > b + 1 then pyGet sides 0 b else 0))
  obtain ⟨_, _, _, _, _, _, z7, z8, z9, z10, z11, z12⟩ := dir_fold (dirTicks prices volumes sides b c) s1
  obtain ⟨w1, w2, w3, w4, w5, w6⟩ := hpfx (dirTicks prices volumes sides a c)
    (if c > a + 1 then pyGet sides 0 a else 0) (if b > a + 1 then pyGet sides 0 a else 0)
  have hfold : (dirTicks prices volumes sides a c).foldl dirStep
      (dirInit (if b > a + 1 then pyGet sides 0 a else 0)) = (dirTicks prices volumes sides b c).foldl dirStep s1 := by
    rw [dirTicks_join _ _ _ a b c hab hbc, List.foldl_append]
  rw [hfold] at w1 w2 w3 w4 w5 w6
  simp only [one, two, all, dirBar_eq, ← hs1]
  rw [w1, w2, w3, w4, w5, w6, ← k1, ← k2, ← k3, y7, y8, y9, y10, y11, y12, z7, z8, z9, z10, z11, z12]
  exact ⟨path_min_join _ _ _ _, path_max_join _ _ _ _, path_min_join _ _ _ _, path_max_join _ _ _ _,
    path_min_join _ _ _ _, path_max_join _ _ _ _⟩

example : let p : List ℚ := [5, 7, 4, 6, 5]; let v : List ℚ := [1, 2, 3, 4, 1]; let s : List Int := [1, -1, -1, 1, 1]
    (dirBar p v s 0 2).cumVolMin = -5 ∧ (dirBar p v s 0 2).cumVolMax = -2 ∧ (dirBar p v s 2 4).cumVolMax = 5 ∧
    (dirBar p v s 0 2).volBuy - (dirBar p v s 0 2).volSell = -5 ∧ (dirBar p v s 0 4).cumVolMin = -5 ∧
    (dirBar p v s 0 4).cumVolMax = 0 := by decide +kernel

/-- **C165 (spread).** If both bars have at least two trades, the maximum spread of the joined bar is the larger of
the two, and the mean spread is the mean of the two weighted with the number of signed trades. -/
theorem C165_spread (prices volumes : List K) (sides : List Int) (a b c : Int) (hab : a + 1 < b) (hbc : b + 1 < c) :
    let one := dirBar prices volumes sides a b
    let two := dirBar prices volumes sides b c
    let all := dirBar prices volumes sides a c
    all.maxSpread = max one.maxSpread two.maxSpread ∧
    ∀ m₁ m₂, one.meanSpread = some m₁ → two.meanSpread = some m₂ →
      ∃ m, all.meanSpread = some m ∧
        m * ((all.ticksBuy + all.ticksSell : Int) : K) =
          m₁ * ((one.ticksBuy + one.ticksSell : Int) : K) + m₂ * ((two.ticksBuy + two.ticksSell : Int) : K) := by
  intro one two all
  obtain ⟨q1, q2, -, -, -, -⟩ := C165_split prices volumes sides a b c (by omega) (by omega)
  have hprev : ((dirTicks prices volumes sides a b).foldl dirStep (dirInit (pyGet sides 0 a))).prevSign =
      pyGet sides 0 b := by
    unfold dirTicks
    rw [idxRange_snoc (a + 1) b (by omega), List.map_append, List.map_singleton, dir_fold_prev]
  have hj := dir_fold_spread_join (dirTicks prices volumes sides b c)
    ((dirTicks prices volumes sides a b).foldl dirStep (dirInit (pyGet sides 0 a)))
    (dirInit (pyGet sides 0 b))
    ((dirTicks prices volumes sides a b).foldl dirStep (dirInit (pyGet sides 0 a))).maxSpread
    ((dirTicks prices volumes sides a b).foldl dirStep (dirInit (pyGet sides 0 a))).cumSpread
    hprev (by
      have : (0 : K) ≤ ((dirTicks prices volumes sides a b).foldl dirStep (dirInit (pyGet sides 0 a))).maxSpread := by
        have := (dir_fold_spread_join (dirTicks prices volumes sides a b) (dirInit (pyGet sides 0 a))
          (dirInit (pyGet sides 0 a)) 0 0 rfl (by simp [dirInit]) (by simp [dirInit])).1
        rw [this]; exact le_max_left _ _
      simp only [dirInit]
      exact (max_eq_left this).symm) (by simp [dirInit])
  rw [← List.foldl_append, ← dirTicks_join _ _ _ a b c (by omega) (by omega)] at hj
  obtain ⟨j1, j2⟩ := hj
  have e1 : (if b > a + 1 then pyGet sides 0 a else 0) = pyGet sides 0 a := if_pos hab
  have e2 : (if c > b + 1 then pyGet sides 0 b else 0) = pyGet sides 0 b := if_pos hbc
  have e3 : (if c > a + 1 then pyGet sides 0 a else 0) = pyGet sides 0 a := if_pos (by omega)
  refine ⟨?_, ?_⟩
  · simp only [one, two, all, dirBar_eq, e1, e2, e3]
    exact j1
  · intro m₁ m₂ h1 h2
    have pos : ∀ (i j : Int), 0 ≤ (dirBar prices volumes sides i j).ticksBuy ∧
        0 ≤ (dirBar prices volumes sides i j).ticksSell := by
      intro i j
      obtain ⟨x1, x2, _⟩ := dir_fold (dirTicks prices volumes sides i j)
        (dirInit (if j > i + 1 then pyGet sides 0 i else 0))
      simp only [dirBar_eq]
      rw [x1, x2]
      simp only [dirInit]
      omega
    have nz : ∀ (i j : Int) (p : Int) (m : K), (if j > i + 1 then pyGet sides 0 i else 0) = p →
        (dirBar prices volumes sides i j).meanSpread = some m →
        (dirBar prices volumes sides i j).ticksBuy + (dirBar prices volumes sides i j).ticksSell ≠ 0 ∧
        m * (((dirBar prices volumes sides i j).ticksBuy + (dirBar prices volumes sides i j).ticksSell : Int) : K) =
          ((dirTicks prices volumes sides i j).foldl dirStep (dirInit p)).cumSpread := by
      intro i j p m hp hm
      simp only [dirBar_eq, hp] at hm ⊢
      split at hm
      · cases hm
      · rename_i h0
        refine ⟨h0, ?_⟩
        rw [← Option.some.inj hm, div_mul_cancel₀]
        exact_mod_cast h0
    obtain ⟨n1, s1⟩ := nz a b _ m₁ e1 h1
    obtain ⟨n2, s2⟩ := nz b c _ m₂ e2 h2
    have n3 : all.ticksBuy + all.ticksSell ≠ 0 := by
      have p1 := pos a b
      have p2 := pos b c
      show (dirBar prices volumes sides a c).ticksBuy + (dirBar prices volumes sides a c).ticksSell ≠ 0
      rw [q1, q2]
      omega
    have hsome : ∃ m, all.meanSpread = some m := by
      simp only [all, dirBar_eq] at n3 ⊢
      exact ⟨_, if_neg n3⟩
    obtain ⟨m, hm⟩ := hsome
    refine ⟨m, hm, ?_⟩
    obtain ⟨-, s3⟩ := nz a c _ m e3 hm
    exact (s3.trans j2).trans (by rw [← s1, ← s2])

example : let p : List ℚ := [5, 7, 4, 6, 5]; let v : List ℚ := [1, 2, 3, 4, 1]; let s : List Int := [1, -1, -1, 1, -1]
    (dirBar p v s 0 2).maxSpread = 2 ∧ (dirBar p v s 2 4).maxSpread = 2 ∧ (dirBar p v s 0 4).maxSpread = 2 ∧
    (dirBar p v s 0 2).meanSpread = some 1 ∧ (dirBar p v s 2 4).meanSpread = some (3 / 2) ∧
    (dirBar p v s 0 4).meanSpread = some (5 / 4) := by decide +kernel

/-- **C165 (spread of one-trade bars).** With a one-trade bar the rule fails: a run of buys has no side switch, but
cut into single trades every bar reports the price move as its spread. -/
theorem C165_spread_one_trade :
    let p : List ℚ := [5, 7, 8]; let v : List ℚ := [1, 1, 1]; let s : List Int := [1, 1, 1]
    (dirBar p v s 0 1).maxSpread = 2 ∧ (dirBar p v s 1 2).maxSpread = 1 ∧ (dirBar p v s 0 2).maxSpread = 0 := by
  decide +kernel

/-- The entry of a footprint column at price level `p`, 0 where the footprint has no such level. -/
def levelEntry {M : Type} [Zero M] (levels : List Int) (xs : List M) (p : Int) : M := xs.getD (levels.idxOf p) 0

theorem levelEntry_eq {M : Type} [Zero M] (levels : List Int) (xs : List M) (lo : Int) (f : Int → M)
    (hlen : xs.length = levels.length) (hlv : ∀ l : Nat, l < levels.length → levels[l]? = some (lo + l))
    (hx : ∀ l : Nat, l < levels.length → xs[l]? = some (f (lo + l)))
    (hf : ∀ p, p < lo ∨ lo + levels.length ≤ p → f p = 0) (p : Int) : levelEntry levels xs p = f p := by
  unfold levelEntry
  rw [List.getD_eq_getElem?_getD]
  by_cases hm : p ∈ levels
  · have hi := List.idxOf_lt_length_of_mem hm
    have h1 := hlv _ hi
    rw [List.getElem?_eq_getElem hi, List.getElem_idxOf] at h1
    rw [hx _ hi, ← Option.some.inj h1]
    rfl
  · rw [List.idxOf_eq_length hm, List.getElem?_eq_none (by omega)]
    have : p < lo ∨ lo + levels.length ≤ p := by
      by_contra h
      push Not at h
      apply hm
      have := hlv (p - lo).toNat (by omega)
      rw [show lo + ((p - lo).toNat : Int) = p by omega] at this
      exact List.mem_of_getElem? this
    rw [hf p this]
    rfl

/-- **C165 (footprint).** The footprint of the joined bar is, price level by price level, the sum of the two
footprints: buy and sell volume and the numbers of buys and sells. -/
theorem C165_footprint (rnd : K → Int) (hmono : Monotone rnd) (m : K) (prices amounts : List K) (sides : List Int)
    (a b c : Int) (hpa : prices.length = amounts.length) (ha : -1 ≤ a) (hab : a < b) (hbc : b < c)
    (hc : c < prices.length) :
    let bar := fun i j => footprintBar rnd m (ohlcvBar prices amounts i j).low (ohlcvBar prices amounts i j).high
      (footprintTrades prices amounts sides i j)
    ∃ one two all, bar a b = .ok one ∧ bar b c = .ok two ∧ bar a c = .ok all ∧ ∀ p : Int,
      levelEntry all.priceLevels all.lv.buyVol p =
        levelEntry one.priceLevels one.lv.buyVol p + levelEntry two.priceLevels two.lv.buyVol p ∧
      levelEntry all.priceLevels all.lv.sellVol p =
        levelEntry one.priceLevels one.lv.sellVol p + levelEntry two.priceLevels two.lv.sellVol p ∧
      levelEntry all.priceLevels all.lv.buyTicks p =
        levelEntry one.priceLevels one.lv.buyTicks p + levelEntry two.priceLevels two.lv.buyTicks p ∧
      levelEntry all.priceLevels all.lv.sellTicks p =
        levelEntry one.priceLevels one.lv.sellTicks p + levelEntry two.priceLevels two.lv.sellTicks p := by
  intro bar
  have key : ∀ i j : Int, -1 ≤ i → i < j → j < prices.length → ∃ fp, bar i j = .ok fp ∧ ∀ p : Int,
      levelEntry fp.priceLevels fp.lv.buyVol p =
        ((atLevel rnd 1 p (footprintTrades prices amounts sides i j)).map (·.2.1)).sum ∧
      levelEntry fp.priceLevels fp.lv.sellVol p =
        ((atLevel rnd (-1) p (footprintTrades prices amounts sides i j)).map (·.2.1)).sum ∧
      levelEntry fp.priceLevels fp.lv.buyTicks p =
        ((atLevel rnd 1 p (footprintTrades prices amounts sides i j)).length : Int) ∧
      levelEntry fp.priceLevels fp.lv.sellTicks p =
        ((atLevel rnd (-1) p (footprintTrades prices amounts sides i j)).length : Int) := by
    intro i j hi hij hj
    have ho := ohlcvBar_nonempty prices amounts i j hpa hi hij hj
    have hin : ∀ t ∈ footprintTrades prices amounts sides i j,
        (ohlcvBar prices amounts i j).low ≤ t.1 ∧ t.1 ≤ (ohlcvBar prices amounts i j).high := by
      intro t ht
      simp only [footprintTrades, List.mem_map] at ht
      obtain ⟨k, hk, rfl⟩ := ht
      have hmem : pyGet prices 0 k ∈ sliceAfter prices i j := by
        rw [← map_pyGet_idxRange prices 0 i j hi hij.le hj]
        exact List.mem_map_of_mem hk
      exact ⟨ho.low_min _ hmem, ho.high_max _ hmem⟩
    obtain ⟨fp, h0, hn, l1, l2, l3, l4, hall⟩ := C13_footprint_levels rnd hmono m _ _ _
      (ho.low_min _ ho.high_mem) hin
    have hout : ∀ (s p : Int), p < rnd (ohlcvBar prices amounts i j).low ∨
        rnd (ohlcvBar prices amounts i j).low + fp.priceLevels.length ≤ p →
        atLevel rnd s p (footprintTrades prices amounts sides i j) = [] := by
      intro s p hp
      unfold atLevel
      rw [List.filter_eq_nil_iff]
      intro t ht hd
      have := hin t ht
      have g1 := hmono this.1
      have g2 := hmono this.2
      have g3 := (of_decide_eq_true hd).2
      omega
    refine ⟨fp, h0, fun p => ⟨?_, ?_, ?_, ?_⟩⟩
    · exact levelEntry_eq _ _ _ (fun p => ((atLevel rnd 1 p (footprintTrades prices amounts sides i j)).map (·.2.1)).sum) l1
        (fun l hl => (hall l hl).1) (fun l hl => (hall l hl).2.1) (fun p hp => by simp [hout 1 p hp]) p
    · exact levelEntry_eq _ _ _ (fun p => ((atLevel rnd (-1) p (footprintTrades prices amounts sides i j)).map (·.2.1)).sum) l2
        (fun l hl => (hall l hl).1) (fun l hl => (hall l hl).2.2.1) (fun p hp => by simp [hout (-1) p hp]) p
    · exact levelEntry_eq _ _ _ (fun p => ((atLevel rnd 1 p (footprintTrades prices amounts sides i j)).length : Int)) l3
        (fun l hl => (hall l hl).1) (fun l hl => (hall l hl).2.2.2.1) (fun p hp => by simp [hout 1 p hp]) p
    · exact levelEntry_eq _ _ _ (fun p => ((atLevel rnd (-1) p (footprintTrades prices amounts sides i j)).length : Int)) l4
        (fun l hl => (hall l hl).1) (fun l hl => (hall l hl).2.2.2.2) (fun p hp => by simp [hout (-1) p hp]) p
  obtain ⟨one, o1, o2⟩ := key a b ha hab (by omega)
  obtain ⟨two, t1, t2⟩ := key b c (by omega) hbc hc
  obtain ⟨all, a1, a2⟩ := key a c ha (by omega) hc
  refine ⟨one, two, all, o1, t1, a1, fun p => ?_⟩
  obtain ⟨x1, x2, x3, x4⟩ := o2 p
  obtain ⟨y1, y2, y3, y4⟩ := t2 p
  obtain ⟨z1, z2, z3, z4⟩ := a2 p
  have hj : footprintTrades prices amounts sides a c =
      footprintTrades prices amounts sides a b ++ footprintTrades prices amounts sides b c := by
    unfold footprintTrades
    rw [idxRange_join a b c hab.le hbc.le, List.map_append]
  rw [x1, x2, x3, x4, y1, y2, y3, y4, z1, z2, z3, z4, hj]
  simp only [atLevel, List.filter_append, List.map_append, List.sum_append, List.length_append, Nat.cast_add,
    and_self]

example : let rnd := fun x : ℚ => x.floor; let p : List ℚ := [5, 7, 5, 6]; let v : List ℚ := [1, 2, 3, 4]
    let s : List Int := [1, -1, 1, 1]
    let fp := fun i j => footprintBar rnd 3 (ohlcvBar p v i j).low (ohlcvBar p v i j).high (footprintTrades p v s i j)
    ((fp (-1) 1).map (fun f => (f.priceLevels, f.lv.buyVol))) = .ok ([5, 6, 7], [1, 0, 0]) ∧
    ((fp 1 3).map (fun f => (f.priceLevels, f.lv.buyVol))) = .ok ([5, 6], [3, 4]) ∧
    ((fp (-1) 3).map (fun f => (f.priceLevels, f.lv.buyVol))) = .ok ([5, 6, 7], [4, 4, 0]) := by decide +kernel

end FinML
