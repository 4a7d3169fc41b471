/-
C104 (bars, footprints, events and labels: unit of price, unit of volume, origin of time).  `finmlkit/bar/*.py`,
`finmlkit/sampling/filters.py`, `finmlkit/label/tbm.py`.
-/
import Mathlib.Analysis.SpecialFunctions.Log.Basic
import Verif.Props.Units
import Verif.Model.BarKit
import Verif.Model.CusumFilter
import Verif.Model.Label
import Verif.Lemmas.Search

set_option linter.unusedSectionVars false

namespace FinML

variable {K : Type} [Field K] [LinearOrder K] [IsStrictOrderedRing K]

/-! ## Specification -/

/-- A bar in other units: prices times `c`, volumes times `v`. -/
def Ohlcv.inUnits (c v : K) (b : Ohlcv K) : Ohlcv K :=
  { opn := c * b.opn, high := c * b.high, low := c * b.low, close := c * b.close, volume := v * b.volume,
    vwap := c * b.vwap, trades := b.trades, median := v * b.median }

/-- A footprint in other units: levels and counts stay, volumes are multiplied by `v`. -/
def Footprint.inUnits (v : K) (f : Footprint K) : Footprint K :=
  { f with lv := { f.lv with buyVol := scl v f.lv.buyVol, sellVol := scl v f.lv.sellVol } }

/-- Timestamps counted from another origin. -/
def shiftTs (o : Int) (ts : List Int) : List Int := ts.map (fun t => t + o)

/-! ## Bars -/

theorem pyGet_scl (c : K) (xs : List K) (i : Int) : pyGet (scl c xs) 0 i = c * pyGet xs 0 i := by
  unfold pyGet
  rw [scl_length]
  split <;> rw [scl_getD]

/-- **C104 (OHLCV).** In other units of price and volume the table is the converted table. -/
theorem C104_ohlcv (c v : K) (hc : 0 < c) (hv : 0 < v) (prices volumes : List K) (closes : List Int)
    (bars : List (Ohlcv K)) (h : compBarOhlcv prices volumes closes = .ok bars) :
    compBarOhlcv (scl c prices) (scl v volumes) closes = .ok (bars.map (Ohlcv.inUnits c v)) := by
  unfold compBarOhlcv at h ⊢
  rw [scl_length, scl_length]
  by_cases h1 : prices.length ≠ volumes.length
  · rw [if_pos h1] at h; cases h
  · rw [if_neg h1] at h ⊢
    by_cases h2 : closes.length < 2
    · rw [if_pos h2] at h; cases h
    · rw [if_neg h2] at h ⊢
      cases h
      rw [List.map_map, Except.ok.injEq]
      apply List.map_congr_left
      rintro ⟨a, b⟩ _
      simp only [Function.comp]
      unfold ohlcvBar
      by_cases hab : a = b
      · rw [if_pos hab, if_pos hab]
        simp only [pyGet_scl, Ohlcv.inUnits, mul_zero]
      · rw [if_neg hab, if_neg hab]
        simp only [pyGet_scl]
        have hfold : ∀ (l : List (K × K)) (s : OhlcvAcc K),
            (l.map (fun t => (c * t.1, v * t.2))).foldl ohlcvStep ⟨c * s.high, c * s.low, v * s.vol, c * v * s.dollar⟩ =
              ⟨c * (l.foldl ohlcvStep s).high, c * (l.foldl ohlcvStep s).low, v * (l.foldl ohlcvStep s).vol,
                c * v * (l.foldl ohlcvStep s).dollar⟩ := by
          intro l
          induction l with
          | nil => intro s; rfl
          | cons t l ih =>
            intro s
            rw [List.map_cons, List.foldl_cons, List.foldl_cons, ← ih]
            congr 1
            unfold ohlcvStep
            simp only [gt_iff_lt, lt_scl c hc]
            rw [OhlcvAcc.mk.injEq]
            refine ⟨?_, ?_, by ring, by ring⟩
            · split <;> rfl
            · split <;> rfl
        have e1 : (idxRange (a + 1) b).map (fun j => (c * pyGet prices 0 j, v * pyGet volumes 0 j)) =
            ((idxRange (a + 1) b).map (fun j => (pyGet prices 0 j, pyGet volumes 0 j))).map
              (fun t => (c * t.1, v * t.2)) := by rw [List.map_map]; rfl
        have e2 := hfold ((idxRange (a + 1) b).map (fun j => (pyGet prices 0 j, pyGet volumes 0 j)))
          ⟨pyGet prices 0 (a + 1), pyGet prices 0 (a + 1), 0, 0⟩
        simp only [mul_zero] at e2
        have e3 : (idxRange (a + 1) b).map (fun j => v * pyGet volumes 0 j) =
            scl v ((idxRange (a + 1) b).map (fun j => pyGet volumes 0 j)) := by rw [scl, List.map_map]; rfl
        rw [e1, e2, e3, npMedian_scl v hv]
        simp only [Ohlcv.inUnits, pos_scl v hv]
        rw [Ohlcv.mk.injEq]
        refine ⟨rfl, rfl, rfl, rfl, rfl, ?_, rfl, ?_⟩
        · split
          · rw [mul_comm c v, mul_assoc, div_scl v hv, mul_div_assoc]
          · simp
        · split
          · rfl
          · simp

example : (compBarOhlcv [2, 3, (4 : ℚ)] [1, 1, 2] [0, 2]).isOk = true ∧
    (compBarOhlcv (scl 100 [2, 3, (4 : ℚ)]) (scl 10 [1, 1, 2]) [0, 2]).toOption.map (fun l => l.map (fun b => (b.vwap, b.volume))) =
      some [(1100/3, 30)] := by decide +kernel

/-- **C104 (volume and dollar bars).** With thresholds in the same units, volume and dollar bars close at the same
trades. -/
theorem C104_threshold_bars (c v : K) (hc : 0 < c) (hv : 0 < v) (prices volumes : List K) (thr : K) :
    volumeBarIndexer (scl v volumes) (v * thr) = volumeBarIndexer volumes thr ∧
      dollarBarIndexer ((scl c prices).zip (scl v volumes)) (c * v * thr) =
        dollarBarIndexer (prices.zip volumes) thr := by
  constructor
  · have hl : ∀ (l : List K) (i : Nat) (cum : K),
        volumeLoop (v * thr) i (v * cum) (scl v l) = volumeLoop thr i cum l := by
      intro l
      induction l with
      | nil => intro i cum; rfl
      | cons x l ih =>
        intro i cum
        rw [show scl v (x :: l) = v * x :: scl v l from rfl]
        simp only [volumeLoop, ← mul_add, ge_iff_le, le_scl v hv, ih]
        have := ih (i + 1) 0
        rw [mul_zero] at this
        rw [this]
    unfold volumeBarIndexer
    rw [scl_headD, show (scl v volumes).tail = scl v volumes.tail by simp [scl], hl]
  · have hcv := mul_pos hc hv
    have hl : ∀ (l : List (K × K)) (i : Nat) (cum : K),
        dollarLoop (c * v * thr) i (c * v * cum) (l.map (fun t => (c * t.1, v * t.2))) = dollarLoop thr i cum l := by
      intro l
      induction l with
      | nil => intro i cum; rfl
      | cons x l ih =>
        intro i cum
        have e : c * v * cum + c * x.1 * (v * x.2) = c * v * (cum + x.1 * x.2) := by ring
        simp only [List.map_cons, dollarLoop, e, ge_iff_le, le_scl (c * v) hcv, ← mul_sub, ih]
    have hz : (scl c prices).zip (scl v volumes) = (prices.zip volumes).map (fun t => (c * t.1, v * t.2)) := by
      unfold scl; rw [List.zip_map]; rfl
    unfold dollarBarIndexer
    rw [hz]
    have h0 : ((((prices.zip volumes).map (fun t => (c * t.1, v * t.2))).headD (0, 0)).1 *
        (((prices.zip volumes).map (fun t => (c * t.1, v * t.2))).headD (0, 0)).2) =
        c * v * (((prices.zip volumes).headD (0, 0)).1 * ((prices.zip volumes).headD (0, 0)).2) := by
      cases prices.zip volumes with
      | nil => simp
      | cons t l => simp only [List.map_cons, List.headD_cons]; ring
    rw [h0, ← List.map_tail, hl]

example : volumeBarIndexer (scl 5 [1, 2, 1, (3 : ℚ)]) (5 * 3) = volumeBarIndexer [1, 2, 1, (3 : ℚ)] 3 ∧
    dollarBarIndexer ((scl 2 [10, 11, (12 : ℚ)]).zip (scl 5 [1, 2, 1])) (2 * 5 * 20) = dollarBarIndexer ([10, 11, (12 : ℚ)].zip [1, 2, 1]) 20 := by
  decide +kernel

theorem dirFold_scl (c v : K) (hc : 0 < c) (l : List (DirTick K)) :
    ∀ s s' : DirAcc K, s'.ticksBuy = s.ticksBuy → s'.ticksSell = s.ticksSell → s'.volBuy = v * s.volBuy →
      s'.volSell = v * s.volSell → s'.dolBuy = c * v * s.dolBuy → s'.dolSell = c * v * s.dolSell →
      s'.maxSpread = c * s.maxSpread → s'.cumSpread = c * s.cumSpread → s'.prevSign = s.prevSign →
      s'.cumTicks = s.cumTicks → s'.cumTicksMin = s.cumTicksMin → s'.cumTicksMax = s.cumTicksMax →
      let r := l.foldl dirStep s
      let r' := (l.map (fun t => (⟨t.side, c * t.price, c * t.prevPrice, v * t.vol⟩ : DirTick K))).foldl dirStep s'
      r'.ticksBuy = r.ticksBuy ∧ r'.ticksSell = r.ticksSell ∧ r'.volBuy = v * r.volBuy ∧ r'.volSell = v * r.volSell ∧
        r'.dolBuy = c * v * r.dolBuy ∧ r'.dolSell = c * v * r.dolSell ∧ r'.maxSpread = c * r.maxSpread ∧
        r'.cumSpread = c * r.cumSpread ∧ r'.cumTicksMin = r.cumTicksMin ∧ r'.cumTicksMax = r.cumTicksMax := by
  induction l with
  | nil =>
    intro s s' h1 h2 h3 h4 h5 h6 h7 h8 _ _ h11 h12
    exact ⟨h1, h2, h3, h4, h5, h6, h7, h8, h11, h12⟩
  | cons t l ih =>
    intro s s' h1 h2 h3 h4 h5 h6 h7 h8 h9 h10 h11 h12
    rw [List.map_cons, List.foldl_cons, List.foldl_cons]
    have hsp : (dirSpread s' ⟨t.side, c * t.price, c * t.prevPrice, v * t.vol⟩) =
        { s' with
          maxSpread := c * (dirSpread s t).maxSpread
          cumSpread := c * (dirSpread s t).cumSpread
          prevSign := t.side } := by
      unfold dirSpread
      simp only [h9]
      by_cases hne : t.side ≠ s.prevSign
      · simp only [if_pos hne, ← mul_sub, abs_scl c hc, h7, h8, gt_iff_lt, lt_scl c hc, mul_add]
        split <;> rfl
      · simp only [if_neg hne, h7, h8]
    have hs0 : dirSpread s t =
        { s with maxSpread := (dirSpread s t).maxSpread, cumSpread := (dirSpread s t).cumSpread, prevSign := t.side } := by
      unfold dirSpread
      by_cases hne : t.side ≠ s.prevSign
      · simp only [if_pos hne]
      · simp only [if_neg hne]
    unfold dirStep
    simp only [hsp]
    generalize hM : (dirSpread s t).maxSpread = M
    generalize hC : (dirSpread s t).cumSpread = C
    rw [hM, hC] at hs0
    rw [hs0]
    by_cases e1 : t.side = 1
    · simp only [if_pos e1]
      unfold dirExtremes
      apply ih <;> simp only [h1, h2, h3, h4, h5, h6, h10, h11, h12] <;> ring
    · simp only [if_neg e1]
      by_cases e2 : t.side = -1
      · simp only [if_pos e2]
        unfold dirExtremes
        apply ih <;> simp only [h1, h2, h3, h4, h5, h6, h10, h11, h12] <;> ring
      · simp only [if_neg e2]
        apply ih <;> simp only [h1, h2, h3, h4, h5, h6, h10, h11, h12]

/-- A directional row in other units: what remains comparable.  The extremes of cumulated volume and dollars are left out:
they start from absolute sentinels (C11). -/
def DirBar.Converted (c v : K) (b b' : DirBar K) : Prop :=
  b'.ticksBuy = b.ticksBuy ∧ b'.ticksSell = b.ticksSell ∧ b'.volBuy = v * b.volBuy ∧ b'.volSell = v * b.volSell ∧
    b'.dolBuy = c * v * b.dolBuy ∧ b'.dolSell = c * v * b.dolSell ∧
    b'.meanSpread = b.meanSpread.map (fun x => c * x) ∧ b'.maxSpread = c * b.maxSpread ∧
    b'.cumTicksMin = b.cumTicksMin ∧ b'.cumTicksMax = b.cumTicksMax

/-- **C104 (directional features).** Counts stay, volumes, dollars and spreads are converted. -/
theorem C104_directional (c v : K) (hc : 0 < c) (prices volumes : List K) (sides : List Int) (closes : List Int) :
    List.Forall₂ (DirBar.Converted c v) (compBarDirectional prices volumes sides closes)
      (compBarDirectional (scl c prices) (scl v volumes) sides closes) := by
  unfold compBarDirectional
  rw [List.forall₂_map_left_iff, List.forall₂_map_right_iff, List.forall₂_same]
  rintro ⟨a, b⟩ _
  unfold dirBar
  simp only [pyGet_scl]
  generalize (if b > a + 1 then pyGet sides 0 (a + 1 - 1) else 0) = prev
  have h := dirFold_scl c v hc ((idxRange (a + 1) b).map (fun j =>
      (⟨pyGet sides 0 j, pyGet prices 0 j, pyGet prices 0 (j - 1), pyGet volumes 0 j⟩ : DirTick K))) (dirInit prev) (dirInit prev) rfl rfl (by simp [dirInit]) (by simp [dirInit])
      (by simp [dirInit]) (by simp [dirInit]) (by simp [dirInit]) (by simp [dirInit]) rfl rfl rfl rfl
  simp only [List.map_map, Function.comp_def] at h
  obtain ⟨h1, h2, h3, h4, h5, h6, h7, h8, h9, h10⟩ := h
  refine ⟨h1, h2, h3, h4, h5, h6, ?_, h7, h9, h10⟩
  simp only [h1, h2, h8]
  split
  · rfl
  · rw [Option.map_some, mul_div_assoc]

example : (0 : ℚ) < 2 ∧ (compBarDirectional (scl 2 ([10, 11, 12, 10] : List ℚ)) (scl 3 [1, 2, 3, 4]) [1, 1, -1, 1] [0, 3]).map (·.volBuy) = [18] := by
  decide +kernel

/-- **C104 (CUSUM events).** The CUSUM filter and the CUSUM bars do not depend on the unit of price. -/
theorem C104_cusum (log : K → K) (c : K) (hc : 0 < c) (prices : List K) (thr : List K) (ts : List Int)
    (sigma : List (Option K)) (floor mult : K) :
    cusumFilter log (scl c prices) thr = cusumFilter log prices thr ∧
      cusumBarIndexer log ts (scl c prices) sigma floor mult = cusumBarIndexer log ts prices sigma floor mult := by
  constructor
  · unfold cusumFilter
    simp only [scl_length, scl_getD, div_scl c hc]
  · unfold cusumBarIndexer
    simp only [scl_length]
    have : cusumTickAt log ts (scl c prices) (forwardFill none sigma) floor mult =
        cusumTickAt log ts prices (forwardFill none sigma) floor mult := by
      funext i
      unfold cusumTickAt
      simp only [scl_length, scl_getD, div_scl c hc]
    rw [this]

example : (0 : ℚ) < 4 ∧ cusumFilter (fun x => x) (scl 4 [1, 2, 1, (3 : ℚ)]) [1 / 2] = cusumFilter (fun x => x) [1, 2, 1, (3 : ℚ)] [1 / 2] := by
  decide +kernel

/-! ## Footprints -/

theorem levelLoop_scl (rnd rnd' : K → Int) (c v : K) (hr : ∀ p, rnd' (c * p) = rnd p) (low : Int) (n : Nat)
    (l : List (K × K × Int)) :
    ∀ (st lv : Levels K), levelLoop rnd low n st l = .ok lv →
      levelLoop rnd' low n { st with buyVol := scl v st.buyVol, sellVol := scl v st.sellVol }
        (l.map (fun t => (c * t.1, v * t.2.1, t.2.2))) =
        .ok { lv with buyVol := scl v lv.buyVol, sellVol := scl v lv.sellVol } := by
  have hm : ∀ (xs : List K) (k : Nat) (a : K), (scl v xs).modify k (· + v * a) = scl v (xs.modify k (· + a)) := by
    intro xs
    induction xs with
    | nil => intro k a; cases k <;> simp [scl]
    | cons x xs ih =>
      intro k a
      cases k with
      | zero => simp [scl, mul_add]
      | succ k =>
        rw [show scl v (x :: xs) = v * x :: scl v xs from rfl, List.modify_succ_cons, List.modify_succ_cons, ih]; rfl
  induction l with
  | nil =>
    intro st lv h
    simp only [levelLoop, Except.ok.injEq] at h
    subst h; rfl
  | cons t l ih =>
    intro st lv h
    rw [List.map_cons]
    simp only [levelLoop] at h ⊢
    unfold levelStep at h ⊢
    simp only [hr] at h ⊢
    by_cases h1 : 0 ≤ rnd t.1 - low ∧ rnd t.1 - low < n
    · rw [if_pos h1] at h ⊢
      by_cases h2 : t.2.2 = 1
      · rw [if_pos h2] at h ⊢
        simp only [hm] at h ⊢
        exact ih _ lv h
      · rw [if_neg h2] at h ⊢
        by_cases h3 : t.2.2 = -1
        · rw [if_pos h3] at h ⊢
          simp only [hm] at h ⊢
          exact ih _ lv h
        · rw [if_neg h3] at h ⊢
          exact ih _ lv h
    · rw [if_neg h1] at h
      cases h

theorem argmax_scl (v : K) (hv : 0 < v) (l : List K) : argmax (scl v l) = argmax l := by
  have : ∀ (l : List K) (b : K) (bi i : Nat), argmaxLoop (v * b) bi i (scl v l) = argmaxLoop b bi i l := by
    intro l
    induction l with
    | nil => intro b bi i; rfl
    | cons x l ih =>
      intro b bi i
      rw [show scl v (x :: l) = v * x :: scl v l from rfl]
      simp only [argmaxLoop, lt_scl v hv, ih]
  cases l with
  | nil => rfl
  | cons x l =>
    rw [show scl v (x :: l) = v * x :: scl v l from rfl]
    exact this l x 0 1

theorem zipWith_scl (v k : K) (f g : K → K → K) (h : ∀ x y, f (v * x) (v * y) = k * g x y) (xs ys : List K) :
    List.zipWith f (scl v xs) (scl v ys) = scl k (List.zipWith g xs ys) := by
  unfold scl
  rw [List.zipWith_map, List.map_zipWith]
  congr 1; funext x y; exact h x y

theorem profileStats_scl (v : K) (hv : 0 < v) (levels : List Int) (total : List K) :
    profileStats levels (scl v total) = profileStats levels total := by
  unfold profileStats
  simp only [scl_sum, pos_scl v hv]
  have hz : ∀ g : Int → K, (List.zipWith (fun (p : Int) x => g p * x) levels (scl v total)).sum =
      v * (List.zipWith (fun (p : Int) x => g p * x) levels total).sum := by
    intro g
    induction levels generalizing total with
    | nil => simp
    | cons a l ih =>
      cases total with
      | nil => simp [scl]
      | cons x total =>
        rw [show scl v (x :: total) = v * x :: scl v total from rfl]
        simp only [List.zipWith_cons_cons, List.sum_cons, ih]; ring
  split
  · rw [hz (fun p => (p : K)), div_scl v hv]
    generalize (List.zipWith (fun (p : Int) x => (p : K) * x) levels total).sum / total.sum = vw
    rw [hz (fun p => (p : K) - vw), div_scl v hv]
    have : (scl v total).map (fun x => (x / (v * total.sum)) ^ 2) = total.map (fun x => (x / total.sum) ^ 2) := by
      unfold scl; rw [List.map_map]
      apply List.map_congr_left
      intro x _
      simp only [Function.comp, div_scl v hv]
    rw [this]
  · rfl

theorem imbalances_scl (v : K) (hv : 0 < v) (buy sell : List K) (m : K) :
    buyImbalances (scl v buy) (scl v sell) m = buyImbalances buy sell m ∧
      sellImbalances (scl v buy) (scl v sell) m = sellImbalances buy sell m := by
  have ht : ∀ xs : List K, (scl v xs).tail = scl v xs.tail := fun xs => by simp [scl]
  have hd : ∀ xs : List K, (scl v xs).dropLast = scl v xs.dropLast := fun xs => by simp [scl]
  have hz : ∀ xs ys : List K, List.zipWith (fun s b => decide (s > b * m)) (scl v xs) (scl v ys) =
      List.zipWith (fun s b => decide (s > b * m)) xs ys := by
    intro xs ys
    unfold scl
    rw [List.zipWith_map]
    congr 1; funext x y
    simp only [gt_iff_lt, mul_assoc, lt_scl v hv]
  unfold buyImbalances sellImbalances
  simp only [scl_length, ht, hd, hz, and_self]

/-- **C104 (footprints).** If the price levels are counted in ticks of the converted size (`rnd'` gives the level of a
converted price), the footprint has the same levels, counts, imbalance flags, runs, control price, skew and Gini index,
and converted volumes. -/
theorem C104_footprint (rnd rnd' : K → Int) (c v : K) (hv : 0 < v) (hr : ∀ p, rnd' (c * p) = rnd p)
    (m lo hi : K) (trades : List (K × K × Int)) (fp : Footprint K) (h : footprintBar rnd m lo hi trades = .ok fp) :
    footprintBar rnd' m (c * lo) (c * hi) (trades.map (fun t => (c * t.1, v * t.2.1, t.2.2))) = .ok (fp.inUnits v) := by
  unfold footprintBar at h ⊢
  simp only [hr]
  cases hl : levelLoop rnd (rnd lo) (rnd hi - rnd lo + 1).toNat (Levels.zero (rnd hi - rnd lo + 1).toNat) trades with
  | error e => simp only [hl] at h; cases h
  | ok lv =>
    simp only [hl, Except.ok.injEq] at h
    have h1 := levelLoop_scl rnd rnd' c v hr _ _ trades _ lv hl
    have h0 : scl v (List.replicate (rnd hi - rnd lo + 1).toNat (0 : K)) = List.replicate (rnd hi - rnd lo + 1).toNat 0 := by
      simp [scl]
    simp only [Levels.zero, h0] at h1
    simp only [Levels.zero, h1]
    have hf : footprintFeatures ((List.range (rnd hi - rnd lo + 1).toNat).map (fun k : Nat => rnd lo + (k : Int)))
        (scl v lv.buyVol) (scl v lv.sellVol) m =
        footprintFeatures ((List.range (rnd hi - rnd lo + 1).toNat).map (fun k : Nat => rnd lo + (k : Int)))
        lv.buyVol lv.sellVol m := by
      unfold footprintFeatures
      rw [(imbalances_scl v hv _ _ m).1, (imbalances_scl v hv _ _ m).2,
        zipWith_scl v v (· + ·) (· + ·) (fun x y => by ring)]
      simp only [argmax_scl v hv, profileStats_scl v hv]
    rw [hf, ← h]
    rfl

example : (∀ p : ℚ, Rat.floor (1 / 4 * (4 * p)) = Rat.floor p) ∧
    (footprintBar (fun p : ℚ => Rat.floor p) 3 10 12 [(10, 1, 1), (12, 2, -1)]).isOk = true := by
  refine ⟨fun p => ?_, by decide +kernel⟩
  rw [← mul_assoc]
  norm_num

/-! ## Labels -/

theorem tbmLoop_shift (ts : List Int) (logc logc' : List K) (k : K) (n : Nat)
    (hk : ∀ j < n, logc'.getD j 0 = k + logc.getD j 0) (o : Int) (hlen : ts.length = n) (t0 minClose : Int) (side base : K)
    (ub lb : Ext K) (js : List Nat) (hjs : ∀ j ∈ js, j < n) :
    ∀ a, tbmLoop (shiftTs o ts) logc' (t0 + o) minClose side (k + base) ub lb js a =
      tbmLoop ts logc t0 minClose side base ub lb js a := by
  induction js with
  | nil => intro a; rfl
  | cons j js ih =>
    intro a
    have hj := hjs j (by simp)
    have e1 : (shiftTs o ts).getD j 0 - (t0 + o) = ts.getD j 0 - t0 := by
      rw [shiftTs, List.getD_eq_getElem?_getD, List.getElem?_map, List.getD_eq_getElem?_getD,
        List.getElem?_eq_getElem (by omega)]
      simp only [Option.map_some, Option.getD_some]; ring
    have e2 : logc'.getD j 0 - (k + base) = logc.getD j 0 - base := by rw [hk j hj]; ring
    simp only [tbmLoop, e1, e2, ih (fun x hx => hjs x (by simp [hx]))]

theorem searchRight_shift (o : Int) (ts : List Int) (x : Int) : searchRight (shiftTs o ts) (x + o) = searchRight ts x := by
  unfold searchRight shiftTs
  rw [List.takeWhile_map, List.length_map]
  congr 2
  funext t
  simp only [Function.comp, add_le_add_iff_right]

/-- **C104 (labels).** The triple barrier method gives the same result for prices in another unit and timestamps from
another origin. -/
theorem C104_labels (log : K → K) (c : K) (hlog : ∀ x, 0 < x → log (c * x) = log c + log x)
    (p : TbmParams K) (ts : List Int) (o : Int) (close : List K) (hpos : ∀ x ∈ close, 0 < x) (events : List Nat)
    (hev : ∀ e ∈ events, e < close.length) (targets : List K) (side : Option (List Int)) :
    tripleBarrier log p (shiftTs o ts) (scl c close) events targets side =
      tripleBarrier log p ts close events targets side := by
  have hsl : (shiftTs o ts).length = ts.length := by simp [shiftTs]
  unfold tripleBarrier
  rw [hsl, scl_length]
  by_cases h1 : verticalBad p.vertical = true
  · rw [if_pos h1, if_pos h1]
  rw [if_neg h1, if_neg h1]
  by_cases h2 : p.minRet < 0
  · rw [if_pos h2, if_pos h2]
  rw [if_neg h2, if_neg h2]
  by_cases h3 : ts.length ≠ close.length
  · rw [if_pos h3, if_pos h3]
  rw [if_neg h3, if_neg h3]
  by_cases h4 : events.length ≠ targets.length
  · rw [if_pos h4, if_pos h4]
  rw [if_neg h4, if_neg h4]
  by_cases h5 : events = []
  · rw [if_pos h5, if_pos h5]
  rw [if_neg h5, if_neg h5]
  have hlen : ts.length = close.length := not_not.mp h3
  have hk : ∀ j < close.length, ((scl c close).map log).getD j 0 = log c + (close.map log).getD j 0 := by
    intro j hj
    rw [List.getD_eq_getElem?_getD, List.getD_eq_getElem?_getD, List.getElem?_map, List.getElem?_map, scl,
      List.getElem?_map, List.getElem?_eq_getElem hj]
    simp only [Option.map_some, Option.getD_some]
    exact hlog _ (hpos _ (List.getElem_mem _))
  have hE : ∀ e < close.length, ∀ (isMeta : Bool) (t : K) (s : Int),
      tbmEvent p (shiftTs o ts) ((scl c close).map log) isMeta e t s = tbmEvent p ts (close.map log) isMeta e t s := by
    intro e he isMeta t s
    have e0 : (shiftTs o ts).getD e 0 = ts.getD e 0 + o := by
      rw [shiftTs, List.getD_eq_getElem?_getD, List.getElem?_map, List.getD_eq_getElem?_getD,
        List.getElem?_eq_getElem (by omega)]
      rfl
    have e1 : verticalIdx (shiftTs o ts) (ts.getD e 0 + o) p.vertical = verticalIdx ts (ts.getD e 0) p.vertical := by
      cases p.vertical with
      | none => simp only [verticalIdx, hsl]
      | some vb =>
        simp only [verticalIdx]
        rw [show ts.getD e 0 + o + vb = ts.getD e 0 + vb + o by ring, searchRight_shift]
    have hub : verticalIdx ts (ts.getD e 0) p.vertical < close.length := by
      cases p.vertical with
      | none => simp only [verticalIdx]; omega
      | some vb =>
        simp only [verticalIdx]
        have := searchRight_le_length ts (ts.getD e 0 + vb)
        omega
    unfold tbmEvent
    simp only [e0, e1, hk e he]
    split
    · rfl
    · rename_i hgt
      rw [tbmLoop_shift ts (close.map log) ((scl c close).map log) (log c) close.length hk o hlen]
      intro j hj
      rw [List.mem_range'_1] at hj
      omega
  have hzip : ∀ {β γ : Type} (f g : Nat → β → γ) (es : List Nat) (ys : List β),
      (∀ e ∈ es, ∀ y, f e y = g e y) → List.zipWith f es ys = List.zipWith g es ys := by
    intro β γ f g es
    induction es with
    | nil => intro ys _; rfl
    | cons e es ih =>
      intro ys hfg
      cases ys with
      | nil => rfl
      | cons y ys =>
        rw [List.zipWith_cons_cons, List.zipWith_cons_cons, hfg e (by simp), ih ys (fun x hx => hfg x (by simp [hx]))]
  cases side with
  | none =>
    simp only [Except.ok.injEq]
    exact hzip _ _ _ _ (fun e he t => hE e (hev e he) false t 1)
  | some s =>
    simp only
    split
    · rfl
    · rw [Except.ok.injEq]
      exact hzip _ _ _ _ (fun e he x => hE e (hev e he) true x.1 x.2)

example : (∀ x : ℝ, 0 < x → Real.log (3 * x) = Real.log 3 + Real.log x) ∧ (∀ x ∈ [(1 : ℝ), 2], 0 < x) ∧
    ∀ e ∈ [0, 1], e < [(1 : ℝ), 2].length := by
  refine ⟨fun x hx => Real.log_mul (by norm_num) hx.ne', by simp, by simp⟩

/-! ## Origin of time -/

/-- **C104 (time bars).** Moving all timestamps by a multiple of the interval moves the clock and leaves the close
indices. -/
theorem C104_time_bars (ts : List Int) (hne : ts ≠ []) (I k : Int) (hI : 0 < I) :
    timeBarIndexer (shiftTs (k * I) ts) I = (shiftTs (k * I) (timeBarIndexer ts I).1, (timeBarIndexer ts I).2) := by
  have hclock : timeBarClock (shiftTs (k * I) ts) I = shiftTs (k * I) (timeBarClock ts I) := by
    have h1 : (shiftTs (k * I) ts).headD 0 = ts.headD 0 + k * I := by
      cases ts with
      | nil => exact absurd rfl hne
      | cons a l => rfl
    have h2 : (shiftTs (k * I) ts).getLastD 0 = ts.getLastD 0 + k * I := by
      rw [List.getLastD_eq_getLast?, List.getLastD_eq_getLast?, shiftTs, List.getLast?_map,
        List.getLast?_eq_some_getLast hne]
      rfl
    have hf : (ts.headD 0 + k * I) / I = ts.headD 0 / I + k := Int.add_mul_ediv_right _ _ hI.ne'
    have hcl : ceilDiv (ts.getLastD 0 + k * I) I = ceilDiv (ts.getLastD 0) I + k := by
      unfold ceilDiv
      rw [show -(ts.getLastD 0 + k * I) = -ts.getLastD 0 + (-k) * I by ring, Int.add_mul_ediv_right _ _ hI.ne']
      ring
    unfold timeBarClock
    simp only [h1, h2, hf, hcl]
    unfold arange
    rw [shiftTs, List.map_map,
      show (ceilDiv (ts.getLastD 0) I + k) * I + I + 1 - (ts.headD 0 / I + k) * I + I - 1 =
        ceilDiv (ts.getLastD 0) I * I + I + 1 - ts.headD 0 / I * I + I - 1 by ring]
    apply List.map_congr_left
    intro n _
    simp only [Function.comp]
    ring
  unfold timeBarIndexer
  simp only [hclock]
  rw [Prod.mk.injEq]
  refine ⟨rfl, ?_⟩
  rw [show (shiftTs (k * I) (timeBarClock ts I)) = (timeBarClock ts I).map (fun t => t + k * I) from rfl, List.map_map]
  apply List.map_congr_left
  intro x _
  simp only [Function.comp]
  rw [searchRight_shift]

example : ([3, 12, 25] : List Int) ≠ [] ∧ timeBarIndexer (shiftTs (2 * 10) [3, 12, 25]) 10 = ([20, 30, 40, 50, 60], [-1, 0, 1, 2, 2]) := by
  decide +kernel

theorem shiftTs_diff (o : Int) (ts : List Int) (i : Nat) (h : i < ts.length) :
    (shiftTs o ts).getD i 0 = ts.getD i 0 + o := by
  rw [shiftTs, List.getD_eq_getElem?_getD, List.getElem?_map, List.getD_eq_getElem?_getD, List.getElem?_eq_getElem h]
  rfl

/-- **C104 (clock time features).** Lagged returns and time-weighted deviations use time differences only. -/
theorem C104_origin (log sqrt : K → K) (decay : Int → K) (floor : K) (o : Int) (ts : List Int) (close : List K)
    (hlen : ts.length = close.length) (w : Int) (isLog : Bool) (y : List (Option K)) (hy : ts.length = y.length) :
    laggedReturns log (shiftTs o ts) close w isLog = laggedReturns log ts close w isLog ∧
      ewmst sqrt decay floor (shiftTs o ts) y = ewmst sqrt decay floor ts y ∧
      ewmstMean0 sqrt decay floor (shiftTs o ts) y = ewmstMean0 sqrt decay floor ts y := by
  have hl : ∀ x, searchLeft (shiftTs o ts) (x + o) = searchLeft ts x := by
    intro x
    unfold searchLeft shiftTs
    rw [List.takeWhile_map, List.length_map]
    congr 2
    funext t
    simp only [Function.comp, add_lt_add_iff_right]
  have hdec : ∀ i, i < ts.length → decayAt decay (shiftTs o ts) i = decayAt decay ts i := by
    intro i hi
    unfold decayAt
    rw [shiftTs_diff o ts i hi, shiftTs_diff o ts (i - 1) (by omega)]
    congr 1; ring
  have hst : ∀ i, i < ts.length → ewmstState decay (shiftTs o ts) y i = ewmstState decay ts y i := by
    intro i
    induction i with
    | zero => intro _; rfl
    | succ i ih => intro hi; simp only [ewmstState, ih (by omega), hdec (i + 1) hi]
  have hst0 : ∀ i, i < ts.length → ewmst0State decay (shiftTs o ts) y i = ewmst0State decay ts y i := by
    intro i
    induction i with
    | zero => intro _; rfl
    | succ i ih => intro hi; simp only [ewmst0State, ih (by omega), hdec (i + 1) hi]
  have htab : ∀ {β : Type} (n : Nat) (f g : Nat → β), (∀ i < n, f i = g i) → tabulate n f = tabulate n g := by
    intro β n f g h
    unfold tabulate
    apply List.map_congr_left
    intro i hi
    exact h i (List.mem_range.mp hi)
  refine ⟨?_, ?_, ?_⟩
  · unfold laggedReturns
    by_cases hw : w ≤ 0
    · rw [if_pos hw, if_pos hw]
    · rw [if_neg hw, if_neg hw]
      simp only [Except.ok.injEq]
      apply htab
      intro i hi
      rw [shiftTs_diff o ts 0 (by omega), shiftTs_diff o ts i (by omega),
        show ts.getD 0 0 + o + w = ts.getD 0 0 + w + o by ring, hl,
        show ts.getD i 0 + o - w = ts.getD i 0 - w + o by ring, searchRight_shift]
  · unfold ewmst
    apply htab
    intro i hi
    rw [hst i (by omega)]
  · unfold ewmstMean0
    apply htab
    intro i hi
    simp only [hst0 i (by omega)]

example : ([3, 12, 25] : List Int).length = [1, 2, (4 : ℚ)].length ∧
    laggedReturns (fun x => x) (shiftTs 77 [3, 12, 25]) [1, 2, (4 : ℚ)] 10 false = laggedReturns (fun x => x) [3, 12, 25] [1, 2, (4 : ℚ)] 10 false := by
  decide +kernel

/-- **C104 (sample weights).** Attributed returns do not depend on the unit of price. -/
theorem C104_weights (log : K → K) (c : K) (hc : 0 < c) (spans : List (Nat × Nat)) (close : List K) (conc : List Int)
    (normalize : Bool) :
    returnAttribution log spans (scl c close) conc normalize = returnAttribution log spans close conc normalize := by
  have : logReturns log (scl c close) = logReturns log close := by
    unfold logReturns
    cases close with
    | nil => rfl
    | cons x l =>
      simp only [scl, List.map_cons, List.tail_cons, List.cons.injEq, true_and]
      rw [← List.map_cons, List.zipWith_map]
      congr 1
      funext a b
      have : c * a ≠ 0 ↔ a ≠ 0 := by rw [Ne, mul_eq_zero, or_iff_right hc.ne']
      simp only [this, div_scl c hc]
  unfold returnAttribution
  rw [this]

example : (0 : ℚ) < 4 ∧ returnAttribution (fun x => x) [(0, 1), (1, 2)] (scl 4 [1, 2, (3 : ℚ)]) [1, 2, 1] true =
    returnAttribution (fun x => x) [(0, 1), (1, 2)] [1, 2, (3 : ℚ)] [1, 2, 1] true := by decide +kernel

/-- **C104 (units of the extremes).** The running extremes of cumulated volume do depend on the unit: with volumes in
units of `1e-10` the maximum of a single sale is the sentinel `-1e9`, not the converted value. -/
theorem C104_extremes_unit :
    (compBarDirectional [1, (1 : ℚ), 1] [1, 1, 1] [1, -1, -1] [0, 2]).map (fun b => b.cumVolMax) = [-1] ∧
      (compBarDirectional [1, (1 : ℚ), 1] (scl 10000000000 [1, 1, 1]) [1, -1, -1] [0, 2]).map (fun b => b.cumVolMax) =
        [-1000000000] := by
  decide +kernel

example : timeBarIndexer (shiftTs 20 [3, 12, 25]) 10 = ([20, 30, 40, 50, 60], [-1, 0, 1, 2, 2]) ∧
    timeBarIndexer [3, 12, 25] 10 = ([0, 10, 20, 30, 40], [-1, 0, 1, 2, 2]) ∧
    (compBarOhlcv (scl 100 [2, 3, (4 : ℚ)]) (scl 10 [1, 1, 2]) [0, 2]).toOption.map (fun l => l.map (fun b => (b.vwap, b.volume))) =
      some [(1100/3, 30)] := by
  decide +kernel

/-- **C104 (grid).** A shift that is no multiple of the interval moves trades between bars. -/
theorem C104_time_bars_grid : (timeBarIndexer [3, 12, 25] 10).2 = [-1, 0, 1, 2, 2] ∧
    (timeBarIndexer (shiftTs 8 [3, 12, 25]) 10).2 = [-1, 1, 1, 2, 2] := by
  decide +kernel

end FinML
