/-
C10 (buy/sell split), C11 (imbalance extremes), C12 (no look-ahead of the directional features) and C49
(spread statistics).  `finmlkit/bar/base.py:comp_bar_directional_features`.
-/
import Verif.Lemmas.Directional

set_option linter.unusedSectionVars false

namespace FinML

variable {K : Type} [Field K] [LinearOrder K] [IsStrictOrderedRing K]

/-! ## Helper: the trades an iteration reads -/

/-- What the inner loop of bar `(a, b]` reads. -/
def dirTicks (prices volumes : List K) (sides : List Int) (a b : Int) : List (DirTick K) :=
  (idxRange (a + 1) b).map (fun j =>
      { side := pyGet sides 0 j, price := pyGet prices 0 j, prevPrice := pyGet prices 0 (j - 1),
        vol := pyGet volumes 0 j : DirTick K })

theorem dirTicks_sided (prices volumes : List K) (sides : List Int) (a b : Int)
    (hpv : prices.length = volumes.length) (hps : prices.length = sides.length)
    (ha : -1 ≤ a) (hab : a ≤ b) (hb : b < prices.length) :
    (dirTicks prices volumes sides a b).map DirTick.sided = sliceAfter (sidedTrades sides prices volumes) a b := by
  have hlen : (sidedTrades sides prices volumes).length = prices.length := by
    simp [sidedTrades]; omega
  apply List.ext_getElem
  · rw [sliceAfter_length _ _ _ ha hab (by omega)]
    simp only [dirTicks, List.length_map, idxRange_length]
    omega
  · intro i h1 h2
    simp only [dirTicks, List.length_map, idxRange_length] at h1
    simp only [dirTicks, List.getElem_map, DirTick.sided, idxRange_getElem, sliceAfter, List.getElem_take,
      List.getElem_drop, sidedTrades, List.getElem_zip]
    rw [pyGet_getElem sides _ _ (by omega) (by omega), pyGet_getElem prices _ _ (by omega) (by omega),
      pyGet_getElem volumes _ _ (by omega) (by omega)]
    have : (a + 1 + (i : Int)).toNat = (a + 1).toNat + i := by omega
    simp only [this]

theorem dirBar_eq (prices volumes : List K) (sides : List Int) (a b : Int) :
    dirBar prices volumes sides a b =
      (let s := (dirTicks prices volumes sides a b).foldl dirStep
          (dirInit (if b > a + 1 then pyGet sides 0 a else 0))
       { ticksBuy := s.ticksBuy, ticksSell := s.ticksSell, volBuy := s.volBuy, volSell := s.volSell,
         dolBuy := s.dolBuy, dolSell := s.dolSell,
         meanSpread := if s.ticksBuy + s.ticksSell = 0 then none
           else some (s.cumSpread / ((s.ticksBuy + s.ticksSell : Int) : K)),
         maxSpread := s.maxSpread, cumTicksMin := s.cumTicksMin, cumTicksMax := s.cumTicksMax,
         cumVolMin := s.cumVolMin, cumVolMax := s.cumVolMax, cumDolMin := s.cumDolMin,
         cumDolMax := s.cumDolMax }) := by
  have h : a + 1 - 1 = a := by ring
  simp only [dirBar, dirTicks, h]
  rfl

/-! ## C10 -/

/-- `comp_bar_directional_features` returns one row per consecutive pair of close indices. -/
theorem C10_directional_rows (prices volumes : List K) (sides closes : List Int) (hc : closes ≠ []) :
    (compBarDirectional prices volumes sides closes).length + 1 = closes.length ∧
    ∀ (k : Nat) (hk : k + 1 < closes.length),
      (compBarDirectional prices volumes sides closes)[k]? =
        some (dirBar prices volumes sides closes[k] closes[k + 1]) := by
  have hl : 0 < closes.length := List.length_pos_of_ne_nil hc
  refine ⟨?_, ?_⟩
  · simp only [compBarDirectional, closePairs, List.length_map, List.length_zip, List.length_tail]; omega
  · intro k hk
    rw [List.getElem?_eq_getElem (by simp [compBarDirectional, closePairs]; omega)]
    simp [compBarDirectional, closePairs]

example : ([0, 3] : List Int) ≠ [] ∧ compBarDirectional ([10, 11, 12, 10] : List ℚ) [1, 2, 3, 4] [1, 1, -1, 1] [0, 3] =
    [dirBar ([10, 11, 12, 10] : List ℚ) [1, 2, 3, 4] [1, 1, -1, 1] 0 3] := by decide +kernel

/-- **C10.** The buy columns of a bar count and total exactly the bar's trades of side `+1`, the sell columns
exactly those of side `-1`. -/
theorem C10_directional_split (prices volumes : List K) (sides : List Int) (a b : Int)
    (hpv : prices.length = volumes.length) (hps : prices.length = sides.length)
    (ha : -1 ≤ a) (hab : a ≤ b) (hb : b < prices.length) :
    let bar := sliceAfter (sidedTrades sides prices volumes) a b
    let row := dirBar prices volumes sides a b
    row.ticksBuy = (ofSide 1 bar).length ∧ row.ticksSell = (ofSide (-1) bar).length ∧
    row.volBuy = ((ofSide 1 bar).map (·.vol)).sum ∧ row.volSell = ((ofSide (-1) bar).map (·.vol)).sum ∧
    row.dolBuy = ((ofSide 1 bar).map (fun t => t.price * t.vol)).sum ∧
    row.dolSell = ((ofSide (-1) bar).map (fun t => t.price * t.vol)).sum := by
  intro bar row
  have hs := dirTicks_sided prices volumes sides a b hpv hps ha hab hb
  obtain ⟨h1, h2, h3, h4, h5, h6, _⟩ := dir_fold (dirTicks prices volumes sides a b)
    (dirInit (if b > a + 1 then pyGet sides 0 a else 0))
  rw [hs] at h1 h2 h3 h4 h5 h6
  simp only [row, dirBar_eq]
  refine ⟨?_, ?_, ?_, ?_, ?_, ?_⟩
  · rw [h1]; simp [dirInit, bar]
  · rw [h2]; simp [dirInit, bar]
  · rw [h3]; simp [dirInit, bar]
  · rw [h4]; simp [dirInit, bar]
  · rw [h5]; simp [dirInit, bar]
  · rw [h6]; simp [dirInit, bar]

example : let bar := sliceAfter (sidedTrades [1, 1, -1, 1] ([10, 11, 12, 10] : List ℚ) [1, 2, 3, 4]) (-1) 3
    (ofSide 1 bar).length = 3 ∧ ((ofSide 1 bar).map (·.vol)).sum = 7 ∧
    (dirBar ([10, 11, 12, 10] : List ℚ) [1, 2, 3, 4] [1, 1, -1, 1] (-1) 3).volBuy = 7 := by decide +kernel

theorem ofSide_split {M : Type} [AddCommMonoid M] (q : SidedTrade K → M) (l : List (SidedTrade K))
    (h : ∀ t ∈ l, t.side = 1 ∨ t.side = -1) :
    ((ofSide 1 l).map q).sum + ((ofSide (-1) l).map q).sum = (l.map q).sum := by
  induction l with
  | nil => simp [ofSide]
  | cons t l ih =>
    have := ih (fun t ht => h t (List.mem_cons_of_mem _ ht))
    rcases h t (by simp) with ht | ht
    · have e1 : ofSide 1 (t :: l) = t :: ofSide 1 l := by simp [ofSide, ht]
      have e2 : ofSide (-1) (t :: l) = ofSide (-1) l := by simp [ofSide, ht]
      rw [e1, e2, List.map_cons, List.sum_cons, List.map_cons, List.sum_cons, ← this, add_assoc]
    · have e1 : ofSide 1 (t :: l) = ofSide 1 l := by simp [ofSide, ht]
      have e2 : ofSide (-1) (t :: l) = t :: ofSide (-1) l := by simp [ofSide, ht]
      rw [e1, e2, List.map_cons, List.sum_cons, List.map_cons, List.sum_cons, ← this]
      rw [← add_assoc, add_comm _ (q t), add_assoc]

/-- **C10 (totals).** If every trade of the bar is a buy or a sell, buy plus sell columns equal the bar's
trade count, volume and dollar value. -/
theorem C10_directional_total (prices volumes : List K) (sides : List Int) (a b : Int)
    (hpv : prices.length = volumes.length) (hps : prices.length = sides.length)
    (ha : -1 ≤ a) (hab : a ≤ b) (hb : b < prices.length)
    (hside : ∀ s ∈ sliceAfter sides a b, s = 1 ∨ s = -1) :
    let row := dirBar prices volumes sides a b
    row.ticksBuy + row.ticksSell = b - a ∧
    row.volBuy + row.volSell = (sliceAfter volumes a b).sum ∧
    row.dolBuy + row.dolSell = (List.zipWith (· * ·) (sliceAfter prices a b) (sliceAfter volumes a b)).sum := by
  intro row
  obtain ⟨h1, h2, h3, h4, h5, h6⟩ := C10_directional_split prices volumes sides a b hpv hps ha hab hb
  have hlen : (sidedTrades sides prices volumes).length = prices.length := by
    simp [sidedTrades]; omega
  have hbar : sliceAfter (sidedTrades sides prices volumes) a b =
      sidedTrades (sliceAfter sides a b) (sliceAfter prices a b) (sliceAfter volumes a b) := by
    unfold sidedTrades
    rw [← sliceAfter_zip, ← sliceAfter_zip]
    simp only [sliceAfter, List.map_drop, List.map_take]
  have hpl := sliceAfter_length prices a b ha hab hb
  have hvl := sliceAfter_length volumes a b ha hab (by omega)
  have hsl := sliceAfter_length sides a b ha hab (by omega)
  have hall : ∀ t ∈ sliceAfter (sidedTrades sides prices volumes) a b, t.side = 1 ∨ t.side = -1 := by
    intro t ht
    rw [hbar] at ht
    obtain ⟨u, hu, rfl⟩ := List.mem_map.mp ht
    exact hside _ (List.of_mem_zip hu).1
  have htot := ofSide_split (fun t => t.vol) _ hall
  have hdol := ofSide_split (fun t => t.price * t.vol) _ hall
  have hcnt := ofSide_split (fun _ => (1 : Int)) _ hall
  refine ⟨?_, ?_, ?_⟩
  · show row.ticksBuy + row.ticksSell = _
    rw [h1, h2]
    simp only [List.map_const', List.sum_replicate, mul_one, nsmul_eq_mul] at hcnt
    rw [hcnt, sliceAfter_length _ _ _ ha hab (by omega)]
    omega
  · show row.volBuy + row.volSell = _
    rw [h3, h4, htot, hbar]
    congr 1
    simp only [sidedTrades, List.map_map]
    show List.map (Prod.snd ∘ Prod.snd) _ = _
    rw [← List.map_map, List.map_snd_zip (by simp; omega), List.map_snd_zip (by omega)]
  · show row.dolBuy + row.dolSell = _
    rw [h5, h6, hdol, hbar]
    congr 1
    simp only [sidedTrades, List.map_map]
    show List.map ((fun t : K × K => t.1 * t.2) ∘ Prod.snd) _ = _
    rw [← List.map_map, List.map_snd_zip (by simp; omega), List.zip_eq_zipWith, List.map_zipWith]

/- Non-vacuity: a bar with two buys and a sell. -/
example : dirBar ([10, 11, 12, 10] : List ℚ) [1, 2, 3, 4] [1, 1, -1, 1] 0 3 =
    { ticksBuy := 2, ticksSell := 1, volBuy := 6, volSell := 3, dolBuy := 62, dolSell := 36,
      meanSpread := some 1, maxSpread := 2, cumTicksMin := 0, cumTicksMax := 1, cumVolMin := -1,
      cumVolMax := 3, cumDolMin := -14, cumDolMax := 26 } := by decide +kernel

/-! ## C11 -/

/-- `lo` and `hi` are the minimum and maximum of a non-empty list. -/
def IsExtremes {M : Type} [LinearOrder M] (l : List M) (lo hi : M) : Prop :=
  lo ∈ l ∧ hi ∈ l ∧ ∀ x ∈ l, lo ≤ x ∧ x ≤ hi

theorem foldl_extremes {M : Type} [LinearOrder M] (l : List M) (L H : M)
    (hb : ∃ x ∈ l, H ≤ x) (hb' : ∃ x ∈ l, x ≤ L) :
    IsExtremes l (l.foldl min L) (l.foldl max H) := by
  obtain ⟨_, m2, m3⟩ := foldl_min_le l L
  obtain ⟨_, x2, x3⟩ := foldl_max_ge l H
  obtain ⟨u, hu, huH⟩ := hb
  obtain ⟨w, hw, hwL⟩ := hb'
  refine ⟨?_, ?_, fun x hx => ⟨m2 x hx, x2 x hx⟩⟩
  · rcases m3 with h | h
    · have := m2 w hw; rw [h] at this ⊢
      rw [le_antisymm this hwL]; exact hw
    · exact h
  · rcases x3 with h | h
    · have := x2 u hu; rw [h] at this ⊢
      rw [← le_antisymm this huH]; exact hu
    · exact h

/-- **C11.** The `cum_*_min/max` columns are the minimum and maximum of the running imbalance within the bar
(one value after each signed trade) for tick, volume and dollar imbalance, provided the true maximum is at
least `-1e9` and the true minimum at most `1e9` (the initial values used by the code). -/
theorem C11_imbalance_extremes_partial (prices volumes : List K) (sides : List Int) (a b : Int)
    (hpv : prices.length = volumes.length) (hps : prices.length = sides.length)
    (ha : -1 ≤ a) (hab : a ≤ b) (hb : b < prices.length) :
    let bar := sliceAfter (sidedTrades sides prices volumes) a b
    let row := dirBar prices volumes sides a b
    ((∃ x ∈ imbalancePath (fun _ => (1 : Int)) bar, -1000000000 ≤ x) →
      (∃ x ∈ imbalancePath (fun _ => (1 : Int)) bar, x ≤ 1000000000) →
      IsExtremes (imbalancePath (fun _ => (1 : Int)) bar) row.cumTicksMin row.cumTicksMax) ∧
    ((∃ x ∈ imbalancePath (·.vol) bar, -1000000000 ≤ x) →
      (∃ x ∈ imbalancePath (·.vol) bar, x ≤ 1000000000) →
      IsExtremes (imbalancePath (·.vol) bar) row.cumVolMin row.cumVolMax) ∧
    ((∃ x ∈ imbalancePath (fun t => t.price * t.vol) bar, -1000000000 ≤ x) →
      (∃ x ∈ imbalancePath (fun t => t.price * t.vol) bar, x ≤ 1000000000) →
      IsExtremes (imbalancePath (fun t => t.price * t.vol) bar) row.cumDolMin row.cumDolMax) := by
  intro bar row
  have hs := dirTicks_sided prices volumes sides a b hpv hps ha hab hb
  obtain ⟨_, _, _, _, _, _, h7, h8, h9, h10, h11, h12⟩ := dir_fold (dirTicks prices volumes sides a b)
    (dirInit (if b > a + 1 then pyGet sides 0 a else 0))
  rw [hs] at h7 h8 h9 h10 h11 h12
  simp only [row, dirBar_eq]
  rw [h7, h8, h9, h10, h11, h12]
  refine ⟨?_, ?_, ?_⟩ <;>
  · intro hlo hhi
    exact foldl_extremes _ _ _ hlo hhi

example : let bar := sliceAfter (sidedTrades [1, 1, -1, 1] ([10, 11, 12, 10] : List ℚ) [1, 2, 3, 4]) 0 3
    (∃ x ∈ imbalancePath (·.vol) bar, -1000000000 ≤ x) ∧ (∃ x ∈ imbalancePath (·.vol) bar, x ≤ 1000000000) := by
  intro bar
  have h : imbalancePath (·.vol) bar = [2, -1, 3] := by decide +kernel
  rw [h]
  exact ⟨⟨2, by simp, by norm_num⟩, ⟨2, by simp, by norm_num⟩⟩

theorem foldl_extremes_iff {M : Type} [LinearOrder M] (l : List M) (L H : M) :
    IsExtremes l (l.foldl min L) (l.foldl max H) ↔ (∃ x ∈ l, H ≤ x) ∧ (∃ x ∈ l, x ≤ L) := by
  constructor
  · rintro ⟨h1, h2, -⟩
    exact ⟨⟨_, h2, (foldl_max_ge l H).1⟩, ⟨_, h1, (foldl_min_le l L).1⟩⟩
  · rintro ⟨h1, h2⟩
    exact foldl_extremes l L H h1 h2

/-- **C11 (exactly when).** The two columns of an imbalance are its extremes within the bar if and only if the running
imbalance is at least `-1e9` somewhere and at most `1e9` somewhere; in particular they never are for a bar without
signed trades.  In every case the maximum column is the largest of `-1e9` and the running imbalances, and the minimum
column the smallest of `1e9` and the running imbalances. -/
theorem C11_extremes_iff (prices volumes : List K) (sides : List Int) (a b : Int)
    (hpv : prices.length = volumes.length) (hps : prices.length = sides.length)
    (ha : -1 ≤ a) (hab : a ≤ b) (hb : b < prices.length) :
    let bar := sliceAfter (sidedTrades sides prices volumes) a b
    let row := dirBar prices volumes sides a b
    let ticks := imbalancePath (fun _ => (1 : Int)) bar
    let vols := imbalancePath (·.vol) bar
    let dols := imbalancePath (fun t => t.price * t.vol) bar
    (IsExtremes ticks row.cumTicksMin row.cumTicksMax ↔
      (∃ x ∈ ticks, -1000000000 ≤ x) ∧ (∃ x ∈ ticks, x ≤ 1000000000)) ∧
    (IsExtremes vols row.cumVolMin row.cumVolMax ↔ (∃ x ∈ vols, -1000000000 ≤ x) ∧ (∃ x ∈ vols, x ≤ 1000000000)) ∧
    (IsExtremes dols row.cumDolMin row.cumDolMax ↔ (∃ x ∈ dols, -1000000000 ≤ x) ∧ (∃ x ∈ dols, x ≤ 1000000000)) ∧
    ((row.cumTicksMax ∈ -1000000000 :: ticks ∧ ∀ x ∈ -1000000000 :: ticks, x ≤ row.cumTicksMax) ∧
      (row.cumVolMax ∈ -1000000000 :: vols ∧ ∀ x ∈ -1000000000 :: vols, x ≤ row.cumVolMax) ∧
      (row.cumDolMax ∈ -1000000000 :: dols ∧ ∀ x ∈ -1000000000 :: dols, x ≤ row.cumDolMax)) ∧
    ((row.cumTicksMin ∈ 1000000000 :: ticks ∧ ∀ x ∈ 1000000000 :: ticks, row.cumTicksMin ≤ x) ∧
      (row.cumVolMin ∈ 1000000000 :: vols ∧ ∀ x ∈ 1000000000 :: vols, row.cumVolMin ≤ x) ∧
      (row.cumDolMin ∈ 1000000000 :: dols ∧ ∀ x ∈ 1000000000 :: dols, row.cumDolMin ≤ x)) := by
  intro bar row ticks vols dols
  have hs := dirTicks_sided prices volumes sides a b hpv hps ha hab hb
  obtain ⟨_, _, _, _, _, _, h7, h8, h9, h10, h11, h12⟩ := dir_fold (dirTicks prices volumes sides a b)
    (dirInit (if b > a + 1 then pyGet sides 0 a else 0))
  rw [hs] at h7 h8 h9 h10 h11 h12
  have hmax : ∀ {M : Type} [LinearOrder M] (l : List M) (H : M),
      l.foldl max H ∈ H :: l ∧ ∀ x ∈ H :: l, x ≤ l.foldl max H := by
    intro M _ l H
    obtain ⟨e1, e2, e3⟩ := foldl_max_ge l H
    refine ⟨by rw [List.mem_cons]; exact e3, ?_⟩
    intro x hx
    rw [List.mem_cons] at hx
    rcases hx with rfl | hx
    · exact e1
    · exact e2 x hx
  have hmin : ∀ {M : Type} [LinearOrder M] (l : List M) (L : M),
      l.foldl min L ∈ L :: l ∧ ∀ x ∈ L :: l, l.foldl min L ≤ x := by
    intro M _ l L
    obtain ⟨e1, e2, e3⟩ := foldl_min_le l L
    refine ⟨by rw [List.mem_cons]; exact e3, ?_⟩
    intro x hx
    rw [List.mem_cons] at hx
    rcases hx with rfl | hx
    · exact e1
    · exact e2 x hx
  simp only [row, dirBar_eq]
  rw [h7, h8, h9, h10, h11, h12]
  exact ⟨foldl_extremes_iff _ _ _, foldl_extremes_iff _ _ _, foldl_extremes_iff _ _ _,
    ⟨hmax _ _, hmax _ _, hmax _ _⟩, ⟨hmin _ _, hmin _ _, hmin _ _⟩⟩

example : (dirBar ([10, 11, 12, 10] : List ℚ) [1, 2, 3, 4] [1, 1, -1, 1] 0 3).cumVolMin = -1 ∧
    (dirBar ([10, 11] : List ℚ) [1, 2000000000] [1, -1] 0 1).cumVolMax = -1000000000 := by decide +kernel

/-- **C11 (the code violates the unrestricted claim).** One sell of two billion units: the running imbalance is
`-2e9` throughout, but the reported maximum is the initial value `-1e9`, which the imbalance never takes. -/
theorem C11_sentinel_leaks :
    imbalancePath (·.vol) (sliceAfter (sidedTrades [1, -1] ([1, 1] : List ℚ) [1, 2000000000]) 0 1) = [-2000000000] ∧
    (dirBar ([1, 1] : List ℚ) [1, 2000000000] [1, -1] 0 1).cumVolMax = -1000000000 := by
  constructor
  · decide +kernel
  · decide +kernel

/-- **C11 (bars without signed trades).** The columns then keep the initial values `±1e9`. -/
theorem C11_no_signed_trades (prices volumes : List K) (sides : List Int) (a b : Int)
    (hpv : prices.length = volumes.length) (hps : prices.length = sides.length)
    (ha : -1 ≤ a) (hab : a ≤ b) (hb : b < prices.length)
    (hside : ∀ s ∈ sliceAfter sides a b, s ≠ 1 ∧ s ≠ -1) :
    let row := dirBar prices volumes sides a b
    row.cumTicksMin = 1000000000 ∧ row.cumTicksMax = -1000000000 ∧ row.cumVolMin = 1000000000 ∧
    row.cumVolMax = -1000000000 ∧ row.cumDolMin = 1000000000 ∧ row.cumDolMax = -1000000000 := by
  intro row
  have hs := dirTicks_sided prices volumes sides a b hpv hps ha hab hb
  obtain ⟨_, _, _, _, _, _, h7, h8, h9, h10, h11, h12⟩ := dir_fold (dirTicks prices volumes sides a b)
    (dirInit (if b > a + 1 then pyGet sides 0 a else 0))
  rw [hs] at h7 h8 h9 h10 h11 h12
  have hbar : sliceAfter (sidedTrades sides prices volumes) a b =
      sidedTrades (sliceAfter sides a b) (sliceAfter prices a b) (sliceAfter volumes a b) := by
    unfold sidedTrades
    rw [← sliceAfter_zip, ← sliceAfter_zip]
    simp only [sliceAfter, List.map_drop, List.map_take]
  have hnil : ∀ {M : Type} [Neg M] (q : SidedTrade K → M),
      signedValues q (sliceAfter (sidedTrades sides prices volumes) a b) = [] := by
    intro M _ q
    unfold signedValues
    rw [List.filterMap_eq_nil_iff]
    intro t ht
    rw [hbar] at ht
    obtain ⟨u, hu, rfl⟩ := List.mem_map.mp ht
    obtain ⟨n1, n2⟩ := hside _ (List.of_mem_zip hu).1
    simp [n1, n2]
  simp only [row, dirBar_eq]
  rw [h7, h8, h9, h10, h11, h12]
  simp only [hnil, prefixSums, List.foldl_nil, dirInit]
  simp

example : let bar := sliceAfter (sidedTrades [1, 1, -1, 1] ([10, 11, 12, 10] : List ℚ) [1, 2, 3, 4]) 0 3
    imbalancePath (·.vol) bar = [2, -1, 3] := by decide +kernel

/-! ## C12 -/

/-- The columns of a row that do not concern spreads. -/
def DirBar.noSpread (r : DirBar K) : DirBar K := { r with meanSpread := none, maxSpread := 0 }

/-- **C12 (partial).** Trades appended after a bar's close never change the bar's counts, volumes, dollars and
imbalance extremes; they do not change its spread columns either if the bar does not start at the first trade
of the data (`0 ≤ a`).  Missing: the spread columns of a bar starting at trade 0, for which the claim is false
(`C12_first_bar_looks_ahead`). -/
theorem C12_directional_no_lookahead_partial (prices volumes morePrices moreVolumes : List K)
    (sides moreSides : List Int) (a b : Int)
    (hpv : prices.length = volumes.length) (hps : prices.length = sides.length)
    (ha : -1 ≤ a) (hab : a ≤ b) (hb : b < prices.length) :
    (dirBar (prices ++ morePrices) (volumes ++ moreVolumes) (sides ++ moreSides) a b).noSpread =
      (dirBar prices volumes sides a b).noSpread ∧
    (0 ≤ a → dirBar (prices ++ morePrices) (volumes ++ moreVolumes) (sides ++ moreSides) a b =
      dirBar prices volumes sides a b) := by
  have hget : ∀ {α : Type} (xs ys : List α) (d : α) (j : Int), 0 ≤ j → j < xs.length →
      pyGet (xs ++ ys) d j = pyGet xs d j := by
    intro α xs ys d j h1 h2
    rw [pyGet_nonneg _ _ _ h1, pyGet_nonneg _ _ _ h1, List.getD_eq_getElem?_getD, List.getD_eq_getElem?_getD,
      List.getElem?_append_left (by omega)]
  have hsid : (dirTicks (prices ++ morePrices) (volumes ++ moreVolumes) (sides ++ moreSides) a b).map DirTick.sided =
      (dirTicks prices volumes sides a b).map DirTick.sided := by
    simp only [dirTicks, List.map_map]
    apply List.map_congr_left
    intro j hj
    rw [mem_idxRange] at hj
    simp only [Function.comp, DirTick.sided]
    rw [hget prices _ _ _ (by omega) (by omega), hget volumes _ _ _ (by omega) (by omega),
      hget sides _ _ _ (by omega) (by omega)]
  constructor
  · obtain ⟨h1, h2, h3, h4, h5, h6, h7, h8, h9, h10, h11, h12⟩ :=
      dir_fold (dirTicks prices volumes sides a b) (dirInit (if b > a + 1 then pyGet sides 0 a else 0))
    obtain ⟨g1, g2, g3, g4, g5, g6, g7, g8, g9, g10, g11, g12⟩ :=
      dir_fold (dirTicks (prices ++ morePrices) (volumes ++ moreVolumes) (sides ++ moreSides) a b)
        (dirInit (if b > a + 1 then pyGet (sides ++ moreSides) 0 a else 0))
    rw [hsid] at g1 g2 g3 g4 g5 g6 g7 g8 g9 g10 g11 g12
    simp only [dirBar_eq, DirBar.noSpread]
    rw [h1, h2, h3, h4, h5, h6, h7, h8, h9, h10, h11, h12, g1, g2, g3, g4, g5, g6, g7, g8, g9, g10, g11, g12]
    simp only [dirInit]
  · intro h0
    have htk : dirTicks (prices ++ morePrices) (volumes ++ moreVolumes) (sides ++ moreSides) a b =
        dirTicks prices volumes sides a b := by
      simp only [dirTicks]
      apply List.map_congr_left
      intro j hj
      rw [mem_idxRange] at hj
      rw [hget prices _ _ _ (by omega) (by omega), hget prices _ _ (j - 1) (by omega) (by omega),
        hget volumes _ _ _ (by omega) (by omega), hget sides _ _ _ (by omega) (by omega)]
    rw [dirBar_eq, dirBar_eq, htk, hget sides _ _ _ h0 (by omega)]

example : dirBar (([10, 11, 12, 10] : List ℚ) ++ [99]) ([1, 2, 3, 4] ++ [7]) ([1, 1, -1, 1] ++ [-1]) 0 3 =
    dirBar ([10, 11, 12, 10] : List ℚ) [1, 2, 3, 4] [1, 1, -1, 1] 0 3 := by decide +kernel

/-- **C12 (violation).** For a bar that starts at the first trade (close index `-1`, as produced by time bars)
the spread columns depend on the *last* trade of the whole data set: appending a trade after the bar's close
changes the bar's maximum and mean spread. -/
theorem C12_first_bar_looks_ahead :
    (dirBar ([100, 100] : List ℚ) [1, 1] [1, 1] (-1) 1).maxSpread = 0 ∧
    (dirBar ([100, 100, 500] : List ℚ) [1, 1, 1] [1, 1, -1] (-1) 1).maxSpread = 400 ∧
    (dirBar ([100, 100] : List ℚ) [1, 1] [1, 1] (-1) 1).meanSpread = some 0 ∧
    (dirBar ([100, 100, 500] : List ℚ) [1, 1, 1] [1, 1, -1] (-1) 1).meanSpread = some 200 := by
  refine ⟨?_, ?_, ?_, ?_⟩ <;> decide +kernel

/-! ## C49 -/

/-- **C49 (partial).** For a bar with at least two trades that is preceded by a trade, the maximum spread is
the largest absolute price move at a side switch (0 if there is none), and the mean spread is the sum of those
moves divided by the number of signed trades.  Missing: one-trade bars (`C49_one_trade_bar`) and bars starting
at trade 0 (`C12_first_bar_looks_ahead`), for which the claim fails. -/
theorem C49_spread_partial (prices volumes : List K) (sides : List Int) (a b : Int)
    (hpv : prices.length = volumes.length) (hps : prices.length = sides.length)
    (ha : 0 ≤ a) (hab : a + 1 < b) (hb : b < prices.length) :
    let bar := sliceAfter (sidedTrades sides prices volumes) a b
    let row := dirBar prices volumes sides a b
    ∀ ps pp, sides[a.toNat]? = some ps → prices[a.toNat]? = some pp →
    let moves := switchMoves ps pp bar
    (∀ m ∈ moves, m ≤ row.maxSpread) ∧ (row.maxSpread = 0 ∨ row.maxSpread ∈ moves) ∧ 0 ≤ row.maxSpread ∧
    (row.ticksBuy + row.ticksSell ≠ 0 →
      row.meanSpread = some (moves.sum / ((row.ticksBuy + row.ticksSell : Int) : K))) ∧
    (row.ticksBuy + row.ticksSell = 0 → row.meanSpread = none) := by
  intro bar row ps pp hs hp moves
  have hsid := dirTicks_sided prices volumes sides a b hpv hps (by omega) (by omega) hb
  have hsa : pyGet sides 0 a = ps := by
    rw [pyGet_nonneg _ _ _ ha, List.getD_eq_getElem?_getD, hs]; rfl
  have hpa : pyGet prices 0 a = pp := by
    rw [pyGet_nonneg _ _ _ ha, List.getD_eq_getElem?_getD, hp]; rfl
  have hch := dir_fold_spread (dirTicks prices volumes sides a b) (dirInit ps) pp (by
    intro i h
    simp only [dirTicks, List.getElem_map, idxRange_getElem]
    by_cases hi : i = 0
    · subst hi; simp [hpa]
    · rw [if_neg hi]
      congr 1
      omega)
  rw [hsid] at hch
  obtain ⟨h1, h2⟩ := hch
  have hprev : (dirInit ps : DirAcc K).prevSign = ps := rfl
  rw [hprev] at h1 h2
  have hmax : row.maxSpread = moves.foldl max 0 := by
    simp only [row, dirBar_eq, hsa, if_pos hab]
    rw [h1]
    rfl
  obtain ⟨m1, m2, m3⟩ := foldl_max_ge moves (0 : K)
  have hcum : ((dirTicks prices volumes sides a b).foldl dirStep (dirInit ps)).cumSpread = moves.sum := by
    rw [h2]; simp [dirInit, moves, bar]
  have hrow : row.meanSpread = if row.ticksBuy + row.ticksSell = 0 then none
      else some (moves.sum / ((row.ticksBuy + row.ticksSell : Int) : K)) := by
    rw [← hcum]
    simp only [row, dirBar_eq, hsa]
    rw [if_pos (show b > a + 1 from hab)]
  refine ⟨?_, ?_, ?_, ?_, ?_⟩
  · rw [hmax]; exact m2
  · rw [hmax]; exact m3
  · rw [hmax]; exact m1
  · intro h; rw [hrow, if_neg h]
  · intro h; rw [hrow, if_pos h]

example : let row := dirBar ([10, 11, 12, 10] : List ℚ) [1, 2, 3, 4] [1, 1, -1, 1] 0 3
    (0 : Int) + 1 < 3 ∧ ([1, 1, -1, 1] : List Int)[(0 : Int).toNat]? = some 1 ∧ row.maxSpread = 2 ∧ row.meanSpread = some ((1 + 2) / 3) := by
  decide +kernel

/-- **C49 (every bar).** What the spread columns are, for every bar.  The moves counted are those at a change of side,
starting from the side and price of the trade before the bar — except that a bar of one trade starts from side 0, so
that its trade always counts as a change, and a bar starting at the first trade of the data starts from the side and
price of the *last* trade of the data. -/
theorem C49_spread_exact (prices volumes : List K) (sides : List Int) (a b : Int)
    (hpv : prices.length = volumes.length) (hps : prices.length = sides.length)
    (ha : -1 ≤ a) (hab : a < b) (hb : b < prices.length) :
    let bar := sliceAfter (sidedTrades sides prices volumes) a b
    let row := dirBar prices volumes sides a b
    let before := if a = -1 then prices.length - 1 else a.toNat
    ∀ s pp, sides[before]? = some s → prices[before]? = some pp →
    let moves := switchMoves (if b = a + 1 then 0 else s) pp bar
    ((row.maxSpread ∈ 0 :: moves ∧ ∀ m ∈ 0 :: moves, m ≤ row.maxSpread)) ∧
    (row.ticksBuy + row.ticksSell ≠ 0 →
      row.meanSpread = some (moves.sum / ((row.ticksBuy + row.ticksSell : Int) : K))) ∧
    (row.ticksBuy + row.ticksSell = 0 → row.meanSpread = none) := by
  intro bar row before s pp hs hp moves
  have hsid := dirTicks_sided prices volumes sides a b hpv hps (by omega) (by omega) hb
  have hget : ∀ {α : Type} (l : List α) (d x : α), l.length = prices.length → l[before]? = some x →
      pyGet l d a = x := by
    intro α l d x hl hx
    by_cases h1 : a = -1
    · have e : before = prices.length - 1 := if_pos h1
      unfold pyGet
      rw [if_pos (by omega), h1, hl, List.getD_eq_getElem?_getD,
        show ((prices.length : Int) + -1).toNat = prices.length - 1 by omega, ← e, hx]
      rfl
    · have e : before = a.toNat := if_neg h1
      rw [pyGet_nonneg _ _ _ (by omega), List.getD_eq_getElem?_getD, ← e, hx]; rfl
  have hsa := hget sides 0 s hps.symm hs
  have hpa := hget prices 0 pp rfl hp
  set ps := if b = a + 1 then 0 else s with hpsd
  have hprevs : (if b > a + 1 then pyGet sides 0 a else 0) = ps := by
    rw [hpsd, hsa]
    by_cases h : b = a + 1
    · rw [if_pos h, if_neg (by omega)]
    · rw [if_neg h, if_pos (by omega)]
  have hch := dir_fold_spread (dirTicks prices volumes sides a b) (dirInit ps) pp (by
    intro i h
    simp only [dirTicks, List.getElem_map, idxRange_getElem]
    by_cases hi : i = 0
    · subst hi; simp [hpa]
    · rw [if_neg hi]
      congr 1
      omega)
  rw [hsid] at hch
  obtain ⟨h1, h2⟩ := hch
  have hprev : (dirInit ps : DirAcc K).prevSign = ps := rfl
  rw [hprev] at h1 h2
  have hmax : row.maxSpread = moves.foldl max 0 := by
    simp only [row, dirBar_eq, hprevs]
    rw [h1]
    rfl
  obtain ⟨m1, m2, m3⟩ := foldl_max_ge moves (0 : K)
  have hcum : ((dirTicks prices volumes sides a b).foldl dirStep (dirInit ps)).cumSpread = moves.sum := by
    rw [h2]; simp only [dirInit, zero_add]; rfl
  have hrow : row.meanSpread = if row.ticksBuy + row.ticksSell = 0 then none
      else some (moves.sum / ((row.ticksBuy + row.ticksSell : Int) : K)) := by
    rw [← hcum]
    simp only [row, dirBar_eq, hprevs]
  refine ⟨⟨?_, ?_⟩, ?_, ?_⟩
  · rw [hmax, List.mem_cons]; exact m3
  · intro m hm
    rw [hmax]
    rw [List.mem_cons] at hm
    rcases hm with rfl | hm
    · exact m1
    · exact m2 m hm
  · intro h; rw [hrow, if_neg h]
  · intro h; rw [hrow, if_pos h]

/-- The single trade of a bar counts as a change of side. -/
example : (dirBar ([100, 103] : List ℚ) [1, 1] [1, 1] 0 1).maxSpread ∈
    (0 : ℚ) :: switchMoves 0 100 (sliceAfter (sidedTrades [1, 1] ([100, 103] : List ℚ) [1, 1]) 0 1) := by decide +kernel

/-- **C49 (violation).** A bar with a single trade always records the price move into that trade as a spread,
even though the side did not switch; the same trade in a two-trade bar records none. -/
theorem C49_one_trade_bar :
    switchMoves 1 100 (sliceAfter (sidedTrades [1, 1] ([100, 103] : List ℚ) [1, 1]) 0 1) = [] ∧
    (dirBar ([100, 103] : List ℚ) [1, 1] [1, 1] 0 1).maxSpread = 3 ∧
    (dirBar ([100, 103, 103] : List ℚ) [1, 1, 1] [1, 1, 1] 0 2).maxSpread = 0 := by
  refine ⟨?_, ?_, ?_⟩ <;> decide +kernel

example : switchMoves 1 10 (sliceAfter (sidedTrades [1, 1, -1, 1] ([10, 11, 12, 10] : List ℚ) [1, 2, 3, 4]) 0 3) =
    [1, 2] := by decide +kernel

end FinML
