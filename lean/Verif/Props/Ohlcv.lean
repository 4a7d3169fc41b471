/-
C07 (bars partition the trades and conserve totals), C08 (OHLCV rows are faithful summaries) and the
OHLCV part of C09 (no look-ahead).  `finmlkit/bar/base.py:comp_bar_ohlcv`.
-/
import Verif.Lemmas.Bars
import Verif.Lemmas.Median

set_option linter.unusedSectionVars false

namespace FinML

variable {K : Type} [Field K] [LinearOrder K] [IsStrictOrderedRing K]

/-! ## Specification -/

/-- `bar` is the OHLCV summary of a non-empty run of trades with prices `ps` and volumes `vs`. -/
structure IsOhlcvOf (ps vs : List K) (bar : Ohlcv K) : Prop where
  opn : ps.head? = some bar.opn
  close : ps.getLast? = some bar.close
  high_mem : bar.high ∈ ps
  high_max : ∀ p ∈ ps, p ≤ bar.high
  low_mem : bar.low ∈ ps
  low_min : ∀ p ∈ ps, bar.low ≤ p
  volume : bar.volume = vs.sum
  trades : bar.trades = ps.length
  median : IsMedian vs bar.median
  vwap : 0 < vs.sum → bar.vwap * vs.sum = (List.zipWith (· * ·) ps vs).sum
  vwap_zero : vs.sum ≤ 0 → bar.vwap = 0

/-! ## C07 -/

/-- **C07 (partition).** For non-decreasing close indices, the trades of consecutive bars, concatenated in
order, are exactly the trades after the first close up to the last close: no trade is lost, duplicated or
reordered. -/
theorem C07_bars_partition {α : Type} (xs : List α) (c : List Int) (hc : ValidCloses c xs.length) :
    ∀ (hne : c ≠ []), ((c.zip c.tail).map (fun p => sliceAfter xs p.1 p.2)).flatten =
      sliceAfter xs (c.head hne) (c.getLast hne) :=
  fun hne => flatten_slices xs c hc.mono hc.lower hne

example : ((([-1, 1, 1, 4] : List Int).zip [1, 1, 4]).map
    (fun p => sliceAfter ["a", "b", "c", "d", "e", "f"] p.1 p.2)) =
    [["a", "b"], [], ["c", "d", "e"]] := by decide

theorem ohlcvBar_nonempty (prices volumes : List K) (a b : Int) (hl : prices.length = volumes.length)
    (ha : -1 ≤ a) (hab : a < b) (hb : b < prices.length) :
    IsOhlcvOf (sliceAfter prices a b) (sliceAfter volumes a b) (ohlcvBar prices volumes a b) := by
  have hb' : b < volumes.length := by omega
  have hzip := map_pyGet_idxRange_zip prices volumes 0 0 a b ha (le_of_lt hab) hb hb'
  have hpl := sliceAfter_length prices a b ha (le_of_lt hab) hb
  have hvl := sliceAfter_length volumes a b ha (le_of_lt hab) hb'
  have hmv := map_pyGet_idxRange volumes 0 a b ha (le_of_lt hab) hb'
  have hfst : ((sliceAfter (prices.zip volumes) a b).map Prod.fst) = sliceAfter prices a b := by
    rw [sliceAfter_zip, List.map_fst_zip (by omega)]
  have hsnd : ((sliceAfter (prices.zip volumes) a b).map Prod.snd) = sliceAfter volumes a b := by
    rw [sliceAfter_zip, List.map_snd_zip (by omega)]
  have hdot : ((sliceAfter (prices.zip volumes) a b).map (fun t => t.1 * t.2)) =
      List.zipWith (· * ·) (sliceAfter prices a b) (sliceAfter volumes a b) := by
    rw [sliceAfter_zip, List.zip_eq_zipWith, List.map_zipWith]
  have hmem : ∀ p, p ∈ sliceAfter prices a b ↔ ∃ t ∈ sliceAfter (prices.zip volumes) a b, p = t.1 := by
    intro p; rw [← hfst, List.mem_map]; simp [eq_comm]
  have hopen : (sliceAfter prices a b).head? = some (pyGet prices 0 (a + 1)) := by
    rw [List.head?_eq_getElem?, List.getElem?_eq_getElem (by omega)]
    rw [pyGet_getElem _ _ _ (by omega) (by omega)]
    simp only [sliceAfter, List.getElem_take, List.getElem_drop]
    congr 1
  have hclose : (sliceAfter prices a b).getLast? = some (pyGet prices 0 b) := by
    rw [List.getLast?_eq_getElem?, List.getElem?_eq_getElem (by omega)]
    rw [pyGet_getElem _ _ _ (by omega) (by omega)]
    simp only [sliceAfter, List.getElem_take, List.getElem_drop]
    congr 2
    have := hpl; unfold sliceAfter at this
    omega
  have hp0 : pyGet prices 0 (a + 1) ∈ sliceAfter prices a b := by
    apply List.mem_of_mem_head?; rw [hopen]; rfl
  unfold ohlcvBar
  rw [if_neg (by omega)]
  simp only [hzip]
  set s0 : OhlcvAcc K := { high := pyGet prices 0 (a+1), low := pyGet prices 0 (a+1), vol := 0, dollar := 0 } with hs0
  obtain ⟨_, hh2, hh3⟩ := ohlcv_fold_high (sliceAfter (prices.zip volumes) a b) s0
  obtain ⟨_, hl2, hl3⟩ := ohlcv_fold_low (sliceAfter (prices.zip volumes) a b) s0
  have hvol : ((sliceAfter (prices.zip volumes) a b).foldl ohlcvStep s0).vol = (sliceAfter volumes a b).sum := by
    rw [ohlcv_fold_vol, hsnd, zero_add]
  have hdol : ((sliceAfter (prices.zip volumes) a b).foldl ohlcvStep s0).dollar =
      (List.zipWith (· * ·) (sliceAfter prices a b) (sliceAfter volumes a b)).sum := by
    rw [ohlcv_fold_dollar, hdot, zero_add]
  refine ⟨hopen, hclose, ?_, ?_, ?_, ?_, hvol, ?_, ?_, ?_, ?_⟩
  · rcases hh3 with h | ⟨t, ht, h⟩
    · rw [h]; exact hp0
    · rw [h]; exact (hmem _).mpr ⟨t, ht, rfl⟩
  · intro p hp
    obtain ⟨t, ht, rfl⟩ := (hmem p).mp hp
    exact hh2 t ht
  · rcases hl3 with h | ⟨t, ht, h⟩
    · rw [h]; exact hp0
    · rw [h]; exact (hmem _).mpr ⟨t, ht, rfl⟩
  · intro p hp
    obtain ⟨t, ht, rfl⟩ := (hmem p).mp hp
    exact hl2 t ht
  · show b - (a + 1) + 1 = _
    rw [hpl]; omega
  · show IsMedian _ (if b - (a + 1) + 1 > 0 then npMedian ((idxRange (a+1) b).map (fun j => pyGet volumes 0 j)) else 0)
    rw [if_pos (by omega), show (fun j => pyGet volumes 0 j) = pyGet volumes 0 from rfl, hmv]
    apply npMedian_isMedian
    intro h; rw [h] at hvl; simp at hvl; omega
  · intro h
    show (if _ > 0 then _ else _) * _ = _
    rw [hvol, hdol, if_pos h, div_mul_cancel₀ _ (ne_of_gt h)]
  · intro h
    show (if _ > 0 then _ else _) = _
    rw [hvol, if_neg (not_lt.mpr h)]

/-! ## C08 -/

/-- **C08.** Whenever `comp_bar_ohlcv` succeeds on well-formed close indices there is one row per consecutive
pair of close indices; a row for a non-empty bar is the OHLCV summary of exactly that bar's trades, and a row
for an empty bar repeats the price of the trade at its close index with zero volume, vwap and trade count. -/
theorem C08_ohlcv_rows (prices volumes : List K) (closes : List Int)
    (hl : prices.length = volumes.length) (hc : ValidCloses closes prices.length) :
    ∃ bars, compBarOhlcv prices volumes closes = .ok bars ∧ bars.length + 1 = closes.length ∧
      ∀ (k : Nat) (hk : k + 1 < closes.length), ∃ bar, bars[k]? = some bar ∧
        (closes[k] < closes[k + 1] →
          IsOhlcvOf (sliceAfter prices closes[k] closes[k + 1])
            (sliceAfter volumes closes[k] closes[k + 1]) bar) ∧
        (closes[k] = closes[k + 1] → 0 ≤ closes[k] →
          ∃ p, prices[closes[k].toNat]? = some p ∧
          bar = { opn := p, high := p, low := p, close := p, volume := 0, vwap := 0, trades := 0, median := 0 }) := by
  refine ⟨(closePairs closes).map (fun c => ohlcvBar prices volumes c.1 c.2), ?_, ?_, ?_⟩
  · unfold compBarOhlcv
    rw [if_neg (by omega), if_neg (by have := hc.two; omega)]
  · simp only [closePairs, List.length_map, List.length_zip, List.length_tail]
    have := hc.two; omega
  · intro k hk
    refine ⟨ohlcvBar prices volumes closes[k] closes[k + 1], ?_, ?_, ?_⟩
    · rw [List.getElem?_eq_getElem (by simp [closePairs]; omega)]
      simp [closePairs]
    · intro h
      exact ohlcvBar_nonempty prices volumes _ _ hl (hc.lower _ (List.getElem_mem _)) h
        (hc.upper _ (List.getElem_mem _))
    · intro h h0
      have hu := hc.upper closes[k] (List.getElem_mem _)
      refine ⟨pyGet prices 0 closes[k], ?_, ?_⟩
      · rw [pyGet_getElem _ _ _ h0 hu, List.getElem?_eq_getElem]
      · unfold ohlcvBar; rw [← h, if_pos rfl]

example : (compBarOhlcv [2, 3, (4 : ℚ)] [1, 1, 2] [-1, 0, 2]).toOption.map (fun l => l.map (fun b => (b.opn, b.high, b.low, b.close))) =
    some [(2, 2, 2, 2), (3, 4, 3, 4)] := by decide +kernel

/-- **C08 (ordering).** In a faithful summary of trades with non-negative volumes,
`low ≤ open, close ≤ high`, and `low ≤ vwap ≤ high` if anything was traded. -/
theorem C08_ohlcv_ordering (ps vs : List K) (bar : Ohlcv K) (h : IsOhlcvOf ps vs bar)
    (hlen : ps.length = vs.length) (hv : ∀ v ∈ vs, 0 ≤ v) :
    bar.low ≤ bar.opn ∧ bar.opn ≤ bar.high ∧ bar.low ≤ bar.close ∧ bar.close ≤ bar.high ∧
      (0 < vs.sum → bar.low ≤ bar.vwap ∧ bar.vwap ≤ bar.high) := by
  have ho : bar.opn ∈ ps := List.mem_of_mem_head? (by rw [h.opn]; rfl)
  have hc : bar.close ∈ ps := List.mem_of_getLast? h.close
  refine ⟨h.low_min _ ho, h.high_max _ ho, h.low_min _ hc, h.high_max _ hc, ?_⟩
  intro hpos
  have hw := h.vwap hpos
  have e1 : (List.zipWith (· * ·) ps vs) = (ps.zip vs).map (fun t => t.1 * t.2) := by
    rw [List.zip_eq_zipWith, List.map_zipWith]
  have e2 : (ps.zip vs).map Prod.snd = vs := List.map_snd_zip (by omega)
  have hp : ∀ t ∈ ps.zip vs, t.1 ∈ ps ∧ t.2 ∈ vs := fun t ht => List.of_mem_zip ht
  have hle := weighted_le (ps.zip vs) bar.high (fun t ht => h.high_max _ (hp t ht).1) (fun t ht => hv _ (hp t ht).2)
  have hge := le_weighted (ps.zip vs) bar.low (fun t ht => h.low_min _ (hp t ht).1) (fun t ht => hv _ (hp t ht).2)
  rw [e2, ← e1, ← hw] at hle hge
  exact ⟨le_of_mul_le_mul_right hge hpos, le_of_mul_le_mul_right hle hpos⟩

/- Non-vacuity: seven trades, closes 0, 2, 2, 5. -/
example : compBarOhlcv ([1, 3, 2, 5, 4, 6, 7] : List ℚ) [1, 1, 3, 2, 2, 4, 9] [0, 2, 2, 5] =
    .ok [{ opn := 3, high := 3, low := 2, close := 2, volume := 4, vwap := 9/4, trades := 2, median := 2 },
         { opn := 2, high := 2, low := 2, close := 2, volume := 0, vwap := 0, trades := 0, median := 0 },
         { opn := 5, high := 6, low := 4, close := 6, volume := 8, vwap := 21/4, trades := 3, median := 2 }] := by
  decide +kernel
example : ValidCloses [0, 2, 2, 5] 7 :=
  ⟨by decide, by decide, by decide, by decide⟩

/-! ## C07 (conservation) -/

theorem sum_map_flatten {β : Type} [AddCommMonoid β] (l : List (List β)) :
    (l.map List.sum).sum = l.flatten.sum := by
  induction l with
  | nil => rfl
  | cons a l ih => rw [List.map_cons, List.sum_cons, ih, List.flatten_cons, List.sum_append]

theorem ohlcvBar_totals (prices volumes : List K) (a b : Int) (hl : prices.length = volumes.length)
    (ha : -1 ≤ a) (hab : a ≤ b) (hb : b < prices.length) (hv : ∀ v ∈ volumes, 0 ≤ v) :
    (ohlcvBar prices volumes a b).volume = (sliceAfter volumes a b).sum ∧
    (ohlcvBar prices volumes a b).trades = ((sliceAfter prices a b).length : Int) ∧
    (ohlcvBar prices volumes a b).vwap * (ohlcvBar prices volumes a b).volume =
      (sliceAfter (List.zipWith (· * ·) prices volumes) a b).sum := by
  rcases eq_or_lt_of_le hab with rfl | hlt
  · simp [ohlcvBar, sliceAfter_self]
  · have h := ohlcvBar_nonempty prices volumes a b hl ha hlt hb
    refine ⟨h.volume, h.trades, ?_⟩
    have e : sliceAfter (List.zipWith (· * ·) prices volumes) a b =
        List.zipWith (· * ·) (sliceAfter prices a b) (sliceAfter volumes a b) := by
      simp only [sliceAfter, List.drop_zipWith, List.take_zipWith]
    rw [e, h.volume]
    have hvs : ∀ v ∈ sliceAfter volumes a b, 0 ≤ v := fun v hv' =>
      hv v (List.mem_of_mem_drop (List.mem_of_mem_take hv'))
    have h0 : 0 ≤ (sliceAfter volumes a b).sum := List.sum_nonneg hvs
    rcases eq_or_lt_of_le h0 with h0 | h0
    · rw [← h0, mul_zero]
      have hz : ∀ v ∈ sliceAfter volumes a b, v = 0 :=
        fun v hv => List.all_zero_of_le_zero_le_of_sum_eq_zero hvs h0.symm hv
      have hall : ∀ x ∈ List.zipWith (· * ·) (sliceAfter prices a b) (sliceAfter volumes a b), x = 0 := by
        intro x hx
        have hx' : x ∈ ((sliceAfter prices a b).zip (sliceAfter volumes a b)).map (fun t => t.1 * t.2) := by
          rw [List.zip_eq_zipWith, List.map_zipWith]; exact hx
        obtain ⟨t, ht, rfl⟩ := List.mem_map.mp hx'
        rw [hz t.2 (List.of_mem_zip ht).2, mul_zero]
      exact (List.sum_eq_zero hall).symm
    · exact h.vwap h0

/-- **C07 (conservation).** Over all bars, volumes, trade counts and dollar values (`vwap * volume`) add up to
the totals of the trades after the first close up to the last close. -/
theorem C07_bars_conserve (prices volumes : List K) (closes : List Int) (hne : closes ≠ [])
    (hl : prices.length = volumes.length) (hc : ValidCloses closes prices.length)
    (hv : ∀ v ∈ volumes, 0 ≤ v) (bars : List (Ohlcv K))
    (hok : compBarOhlcv prices volumes closes = .ok bars) :
    (bars.map (·.volume)).sum = (sliceAfter volumes (closes.head hne) (closes.getLast hne)).sum ∧
    (bars.map (·.trades)).sum = closes.getLast hne - closes.head hne ∧
    (bars.map (fun b => b.vwap * b.volume)).sum =
      (sliceAfter (List.zipWith (· * ·) prices volumes) (closes.head hne) (closes.getLast hne)).sum := by
  have hbars : bars = (closePairs closes).map (fun c => ohlcvBar prices volumes c.1 c.2) := by
    unfold compBarOhlcv at hok
    rw [if_neg (by omega), if_neg (by have := hc.two; omega)] at hok
    exact (Except.ok.inj hok).symm
  have hpair : ∀ p ∈ closes.zip closes.tail, p.1 ∈ closes ∧ p.2 ∈ closes ∧ p.1 ≤ p.2 := by
    intro p hp
    obtain ⟨i, hi, rfl⟩ := List.getElem_of_mem hp
    rw [List.length_zip, List.length_tail] at hi
    rw [List.getElem_zip, List.getElem_tail]
    refine ⟨List.getElem_mem _, List.getElem_mem _, ?_⟩
    exact List.pairwise_iff_getElem.mp hc.mono i (i+1) (by omega) (by omega) (by omega)
  have htot : ∀ p ∈ closes.zip closes.tail, _ := fun p hp =>
    ohlcvBar_totals prices volumes p.1 p.2 hl (hc.lower _ (hpair p hp).1) (hpair p hp).2.2
      (hc.upper _ (hpair p hp).2.1) hv
  have hhead : -1 ≤ closes.head hne := hc.lower _ (List.head_mem hne)
  have hlast : closes.getLast hne < prices.length := hc.upper _ (List.getLast_mem hne)
  have hhl : closes.head hne ≤ closes.getLast hne := by
    rw [List.head_eq_getElem, List.getLast_eq_getElem]
    have := hc.two
    exact List.pairwise_iff_getElem.mp hc.mono 0 (closes.length - 1) (by omega) (by omega) (by omega)
  subst hbars
  refine ⟨?_, ?_, ?_⟩
  · rw [← flatten_slices volumes closes hc.mono hc.lower hne, ← sum_map_flatten, List.map_map, List.map_map]
    congr 1
    apply List.map_congr_left
    intro p hp; exact (htot p hp).1
  · have : ((closePairs closes).map (fun c => ohlcvBar prices volumes c.1 c.2)).map (·.trades) =
        (closes.zip closes.tail).map (fun p => ((sliceAfter prices p.1 p.2).length : Int)) := by
      rw [List.map_map]
      apply List.map_congr_left
      intro p hp; exact (htot p hp).2.1
    rw [this]
    have h2 : ∀ l : List (Int × Int), (l.map (fun p => ((sliceAfter prices p.1 p.2).length : Int))).sum =
        (((l.map (fun p => sliceAfter prices p.1 p.2)).flatten.length : Nat) : Int) := by
      intro l
      induction l with
      | nil => rfl
      | cons a l ih => simp [ih]
    rw [h2, flatten_slices prices closes hc.mono hc.lower hne,
      sliceAfter_length _ _ _ hhead hhl hlast]
    omega
  · rw [← flatten_slices _ closes hc.mono hc.lower hne, ← sum_map_flatten, List.map_map, List.map_map]
    congr 1
    apply List.map_congr_left
    intro p hp; exact (htot p hp).2.2

example : (([1, 1, 3, 2, 2, 4, 9] : List ℚ).drop 1).take 5 = [1, 3, 2, 2, 4] := by decide +kernel

/-! ## C09 (OHLCV rows) -/

/-- **C09 (OHLCV).** A bar's row is unchanged by any trades appended after the bar's close. -/
theorem C09_ohlcv_no_lookahead (prices volumes morePrices moreVolumes : List K) (a b : Int)
    (hl : prices.length = volumes.length) (h0 : 0 ≤ b) (ha : -1 ≤ a) (hab : a ≤ b) (hb : b < prices.length) :
    ohlcvBar (prices ++ morePrices) (volumes ++ moreVolumes) a b = ohlcvBar prices volumes a b := by
  have hget : ∀ (xs ys : List K) (j : Int), 0 ≤ j → j < xs.length → pyGet (xs ++ ys) 0 j = pyGet xs 0 j := by
    intro xs ys j h1 h2
    rw [pyGet_nonneg _ _ _ h1, pyGet_nonneg _ _ _ h1, List.getD_eq_getElem?_getD, List.getD_eq_getElem?_getD,
      List.getElem?_append_left (by omega)]
  have hmap : ∀ (xs ys : List K), b < xs.length →
      (idxRange (a+1) b).map (fun j => pyGet (xs ++ ys) 0 j) = (idxRange (a+1) b).map (fun j => pyGet xs 0 j) := by
    intro xs ys hx
    apply List.map_congr_left
    intro j hj
    rw [mem_idxRange] at hj
    exact hget _ _ _ (by omega) (by omega)
  unfold ohlcvBar
  by_cases he : a = b
  · rw [if_pos he, if_pos he, hget _ _ _ h0 hb]
  · rw [if_neg he, if_neg he]
    simp only
    rw [hget prices _ _ (by omega) (by omega), hget prices _ _ h0 hb, hmap volumes _ (by omega)]
    have : (idxRange (a+1) b).map (fun j => (pyGet (prices ++ morePrices) 0 j, pyGet (volumes ++ moreVolumes) 0 j)) =
        (idxRange (a+1) b).map (fun j => (pyGet prices 0 j, pyGet volumes 0 j)) := by
      apply List.map_congr_left
      intro j hj
      rw [mem_idxRange] at hj
      rw [hget prices _ _ (by omega) (by omega), hget volumes _ _ (by omega) (by omega)]
    rw [this]

example : ohlcvBar (([2, 3, 4] : List ℚ) ++ [99]) ([1, 1, 2] ++ [5]) 0 2 = ohlcvBar ([2, 3, 4] : List ℚ) [1, 1, 2] 0 2 := by decide +kernel

end FinML
