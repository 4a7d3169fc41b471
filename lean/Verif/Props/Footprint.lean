/-
C13 (footprint conservation), C14 (imbalance flags, runs and counts), C15 (profile statistics).
`finmlkit/bar/base.py:comp_bar_footprints`, `comp_footprint_features`.
-/
import Verif.Lemmas.Footprint
import Verif.Props.Ohlcv

set_option linter.unusedSectionVars false

namespace FinML

variable {K : Type} [Field K] [LinearOrder K] [IsStrictOrderedRing K]

/-! ## C13 -/

/-- **C13.** If every trade of a bar lies between the bar's low and high and rounding to tick levels is
monotone, the footprint is computed without an error; its levels are all ticks from low to high; and the buy
(sell) volume and trade count of each level are those of the bar's buys (sells) whose price rounds to it. -/
theorem C13_footprint_levels (rnd : K → Int) (hmono : Monotone rnd) (m lowP highP : K)
    (ts : List (K × K × Int)) (hlh : lowP ≤ highP) (hin : ∀ t ∈ ts, lowP ≤ t.1 ∧ t.1 ≤ highP) :
    ∃ fp, footprintBar rnd m lowP highP ts = .ok fp ∧
      (fp.priceLevels.length : Int) = rnd highP - rnd lowP + 1 ∧
      fp.lv.buyVol.length = fp.priceLevels.length ∧ fp.lv.sellVol.length = fp.priceLevels.length ∧
      fp.lv.buyTicks.length = fp.priceLevels.length ∧ fp.lv.sellTicks.length = fp.priceLevels.length ∧
      ∀ l : Nat, l < fp.priceLevels.length →
        fp.priceLevels[l]? = some (rnd lowP + l) ∧
        fp.lv.buyVol[l]? = some ((atLevel rnd 1 (rnd lowP + l) ts).map (·.2.1)).sum ∧
        fp.lv.sellVol[l]? = some ((atLevel rnd (-1) (rnd lowP + l) ts).map (·.2.1)).sum ∧
        fp.lv.buyTicks[l]? = some ((atLevel rnd 1 (rnd lowP + l) ts).length : Int) ∧
        fp.lv.sellTicks[l]? = some ((atLevel rnd (-1) (rnd lowP + l) ts).length : Int) := by
  have hle : rnd lowP ≤ rnd highP := hmono hlh
  have hin' : ∀ t ∈ ts, rnd lowP ≤ rnd t.1 ∧ rnd t.1 < rnd lowP + ((rnd highP - rnd lowP + 1).toNat : Int) := by
    intro t ht
    have h1 := hmono (hin t ht).1
    have h2 := hmono (hin t ht).2
    omega
  set n := (rnd highP - rnd lowP + 1).toNat with hn
  obtain ⟨st, hst, a1, a2, a3, a4⟩ := levelLoop_spec rnd (rnd lowP) n ts (Levels.zero n) hin'
  have hlen : ∀ {M : Type} (l : List M) (z : M) (f : Nat → M → M),
      (∀ i : Nat, l[i]? = (List.replicate n z)[i]?.map (f i)) → l.length = n := by
    intro M l z f h
    have h1 : ¬ n < l.length := by
      intro hlt
      have := h n
      simp [List.getElem?_eq_getElem hlt] at this
    have h2 : ¬ l.length < n := by
      intro hlt
      have := h l.length
      simp [hlt] at this
    omega
  have e1 := hlen _ _ _ a1
  have e2 := hlen _ _ _ a2
  have e3 := hlen _ _ _ a3
  have e4 := hlen _ _ _ a4
  unfold footprintBar
  simp only [← hn, hst]
  refine ⟨_, rfl, ?_, ?_, ?_, ?_, ?_, ?_⟩
  · simp; omega
  · simpa using e1
  · simpa using e2
  · simpa using e3
  · simpa using e4
  · intro l hl
    have hl : l < n := by simpa using hl
    refine ⟨?_, ?_, ?_, ?_, ?_⟩
    · simp [hl]
    · show st.buyVol[l]? = _
      rw [a1]; simp [Levels.zero, hl]
    · show st.sellVol[l]? = _
      rw [a2]; simp [Levels.zero, hl]
    · show st.buyTicks[l]? = _
      rw [a3]; simp [Levels.zero, hl]
    · show st.sellTicks[l]? = _
      rw [a4]; simp [Levels.zero, hl]

example : Monotone (Rat.floor) ∧ (∀ t ∈ ([(10, 1, 1), (12, 2, -1)] : List (ℚ × ℚ × Int)), 10 ≤ t.1 ∧ t.1 ≤ 12) ∧
    (footprintBar Rat.floor 3 10 12 [(10, 1, 1), (12, 2, -1)]).toOption.map (fun fp => (fp.priceLevels, fp.lv.buyVol, fp.lv.sellVol)) =
      some ([10, 11, 12], [1, 0, 0], [0, 0, (2 : ℚ)]) := by
  refine ⟨fun a b h => ?_, by decide +kernel, by decide +kernel⟩
  exact Rat.le_floor_iff.mpr ((Rat.le_floor_iff.mp le_rfl).trans h)

/-- **C13 (conservation).** Summed over the levels, buy and sell volumes and counts are those of the bar's
buys and sells; if every trade has side `±1` they add up to the bar's volume and trade count. -/
theorem C13_footprint_conserves (rnd : K → Int) (hmono : Monotone rnd) (m lowP highP : K)
    (ts : List (K × K × Int)) (hlh : lowP ≤ highP) (hin : ∀ t ∈ ts, lowP ≤ t.1 ∧ t.1 ≤ highP)
    (fp : Footprint K) (hfp : footprintBar rnd m lowP highP ts = .ok fp) :
    fp.lv.buyVol.sum = ((ts.filter (fun t => decide (t.2.2 = 1))).map (·.2.1)).sum ∧
    fp.lv.sellVol.sum = ((ts.filter (fun t => decide (t.2.2 = -1))).map (·.2.1)).sum ∧
    ((∀ t ∈ ts, t.2.2 = 1 ∨ t.2.2 = -1) →
      fp.lv.buyVol.sum + fp.lv.sellVol.sum = (ts.map (·.2.1)).sum ∧
      fp.lv.buyTicks.sum + fp.lv.sellTicks.sum = ts.length) := by
  obtain ⟨fp', h0, h1, l1, l2, l3, l4, hall⟩ := C13_footprint_levels rnd hmono m lowP highP ts hlh hin
  rw [hfp] at h0
  cases Except.ok.inj h0
  have hin' : ∀ t ∈ ts, rnd lowP ≤ rnd t.1 ∧ rnd t.1 < rnd lowP + (fp.priceLevels.length : Int) := by
    intro t ht
    have h1 := hmono (hin t ht).1
    have h2 := hmono (hin t ht).2
    omega
  have hlist : ∀ {M : Type} (l : List M) (f : Nat → M), l.length = fp.priceLevels.length →
      (∀ i : Nat, i < fp.priceLevels.length → l[i]? = some (f i)) → l = (List.range fp.priceLevels.length).map f := by
    intro M l f hl h
    apply List.ext_getElem?
    intro i
    by_cases hi : i < fp.priceLevels.length
    · rw [h i hi]; simp [hi]
    · rw [List.getElem?_eq_none (by omega)]; simp [not_lt.mp hi]
  have b1 := hlist _ _ l1 (fun i hi => (hall i hi).2.1)
  have b2 := hlist _ _ l2 (fun i hi => (hall i hi).2.2.1)
  have b3 := hlist _ _ l3 (fun i hi => (hall i hi).2.2.2.1)
  have b4 := hlist _ _ l4 (fun i hi => (hall i hi).2.2.2.2)
  have s1 := sum_levels (fun t => t.2.1) rnd (rnd lowP) _ 1 ts hin'
  have s2 := sum_levels (fun t => t.2.1) rnd (rnd lowP) _ (-1) ts hin'
  have s3 := sum_levels (fun _ => (1 : Int)) rnd (rnd lowP) _ 1 ts hin'
  have s4 := sum_levels (fun _ => (1 : Int)) rnd (rnd lowP) _ (-1) ts hin'
  simp only [List.map_const', List.sum_replicate, nsmul_eq_mul, mul_one] at s3 s4
  rw [← b1] at s1
  rw [← b2] at s2
  rw [← b3] at s3
  rw [← b4] at s4
  refine ⟨s1, s2, ?_⟩
  intro hs
  rw [s1, s2, s3, s4]
  clear hfp h0 hin hin' hall b1 b2 b3 b4 s1 s2 s3 s4 h1 l1 l2 l3 l4 hlist
  induction ts with
  | nil => simp
  | cons t ts ih =>
    obtain ⟨i1, i2⟩ := ih (fun t ht => hs t (by simp [ht]))
    rcases hs t (by simp) with h | h
    · simp only [List.filter_cons, h, List.map_cons, List.sum_cons, List.length_cons]
      simp only [decide_true, if_true, List.map_cons, List.sum_cons, List.length_cons]
      norm_num
      constructor
      · rw [← i1]; ring
      · push_cast at i2 ⊢; linarith
    · simp only [List.filter_cons, h, List.map_cons, List.sum_cons, List.length_cons]
      simp only [decide_true, if_true, List.map_cons, List.sum_cons, List.length_cons]
      norm_num
      constructor
      · rw [← i1]; ring
      · push_cast at i2 ⊢; linarith

example : (∀ t ∈ ([(10, 1, 1), (12, 2, -1), (12, 5, 1)] : List (ℚ × ℚ × Int)), t.2.2 = 1 ∨ t.2.2 = -1) ∧
    (footprintBar Rat.floor 3 10 12 [(10, 1, 1), (12, 2, -1), (12, 5, 1)]).toOption.map (fun fp => (fp.lv.buyVol.sum, fp.lv.sellVol.sum)) =
      some (6, (2 : ℚ)) := by decide +kernel

/-- **C13 (no rejected trade).** Using the lows and highs computed by `comp_bar_ohlcv`, the footprint of a bar is
computed without an error, for empty and non-empty bars. -/
theorem C13_footprint_accepts_ohlcv (rnd : K → Int) (hmono : Monotone rnd) (m : K)
    (prices amounts : List K) (sides : List Int) (a b : Int)
    (hpa : prices.length = amounts.length) (ha : -1 ≤ a) (hab : a ≤ b) (hb : b < prices.length) :
    let row := ohlcvBar prices amounts a b
    ∃ fp, footprintBar rnd m row.low row.high (footprintTrades prices amounts sides a b) = .ok fp := by
  intro row
  have h : row.low ≤ row.high ∧ ∀ t ∈ footprintTrades prices amounts sides a b, row.low ≤ t.1 ∧ t.1 ≤ row.high := by
    rcases eq_or_lt_of_le hab with rfl | hlt
    · constructor
      · simp [row, ohlcvBar]
      · intro t ht
        simp [footprintTrades, idxRange] at ht
    · have ho := ohlcvBar_nonempty prices amounts a b hpa ha hlt hb
      refine ⟨ho.low_min _ ho.high_mem, ?_⟩
      intro t ht
      obtain ⟨j, hj, rfl⟩ := List.mem_map.mp ht
      have : pyGet prices 0 j ∈ sliceAfter prices a b := by
        rw [← map_pyGet_idxRange prices 0 a b ha hab hb]
        exact List.mem_map.mpr ⟨j, hj, rfl⟩
      exact ⟨ho.low_min _ this, ho.high_max _ this⟩
  obtain ⟨fp, hfp, _⟩ := C13_footprint_levels rnd hmono m row.low row.high _ h.1 h.2
  exact ⟨fp, hfp⟩

example : let prices : List ℚ := [10, 12, 11]
    let amounts : List ℚ := [1, 2, 1]
    prices.length = amounts.length ∧ (footprintBar Rat.floor 3 (ohlcvBar prices amounts (-1) 2).low (ohlcvBar prices amounts (-1) 2).high
      (footprintTrades prices amounts [1, -1, 1] (-1) 2)).isOk = true := by decide +kernel

/-- **C13 (error case).** A trade whose level lies outside the low/high range raises. -/
theorem C13_footprint_rejects (rnd : K → Int) (m lowP highP : K) (ts : List (K × K × Int))
    (t : K × K × Int) (ht : t ∈ ts) (hout : rnd t.1 < rnd lowP ∨ rnd highP < rnd t.1) :
    ∃ e, footprintBar rnd m lowP highP ts = .error e := by
  have hstep : ∀ st, levelStep rnd (rnd lowP) (rnd highP - rnd lowP + 1).toNat st t =
      .error "Something went wrong! Invalid price level index!" := by
    intro st
    unfold levelStep
    simp only
    rw [if_neg (by omega)]
  have hloop : ∀ (ts : List (K × K × Int)), t ∈ ts → ∀ st,
      ∃ e, levelLoop rnd (rnd lowP) (rnd highP - rnd lowP + 1).toNat st ts = .error e := by
    intro ts
    induction ts with
    | nil => intro h; simp at h
    | cons u us ih =>
      intro h st
      unfold levelLoop
      rcases List.mem_cons.mp h with rfl | h
      · rw [hstep]; exact ⟨_, rfl⟩
      · cases levelStep rnd (rnd lowP) (rnd highP - rnd lowP + 1).toNat st u with
        | ok st' => exact ih h st'
        | error e => exact ⟨e, rfl⟩
  obtain ⟨e, he⟩ := hloop ts ht (Levels.zero (rnd highP - rnd lowP + 1).toNat)
  exact ⟨e, by unfold footprintBar; simp only [he]⟩

example : Monotone (fun x : ℚ => (x + 1/2).floor) := fun x y h => Rat.floor_monotone (by linarith)

/-! ## C14 -/

/-- **C14 (flags).** Level `l` is a buy imbalance iff it is not the lowest level and its buy volume exceeds the
multiplier times the sell volume one level below; it is a sell imbalance iff it is not the highest level and its
sell volume exceeds the multiplier times the buy volume one level above. -/
theorem C14_imbalance_flags (levels : List Int) (buy sell : List K) (m : K) (hl : buy.length = sell.length)
    (l : Nat) (h : l < buy.length) :
    let st := footprintFeatures levels buy sell m
    st.buyImb.length = buy.length ∧ st.sellImb.length = buy.length ∧
    (st.buyImb[l]? = some true ↔ ∃ (_ : 0 < l), buy[l] > sell[l - 1] * m) ∧
    (st.sellImb[l]? = some true ↔ ∃ (_ : l + 1 < buy.length), sell[l] > buy[l + 1] * m) := by
  intro st
  show (buyImbalances buy sell m).length = _ ∧ (sellImbalances buy sell m).length = _ ∧
    ((buyImbalances buy sell m)[l]? = some true ↔ _) ∧ ((sellImbalances buy sell m)[l]? = some true ↔ _)
  unfold buyImbalances sellImbalances
  by_cases h1 : buy.length > 1
  · rw [if_pos h1, if_pos h1]
    refine ⟨by simp; omega, by simp; omega, ?_, ?_⟩
    · cases l with
      | zero => simp
      | succ l =>
        rw [List.getElem?_cons_succ, List.getElem?_eq_getElem (by simp; omega)]
        simp
    · by_cases h2 : l + 1 < buy.length
      · rw [List.getElem?_append_left (by simp; omega), List.getElem?_eq_getElem (by simp; omega)]
        simp [h2]
      · rw [List.getElem?_append_right (by simp; omega)]
        have : l - (List.zipWith (fun s b => decide (s > b * m)) sell.dropLast buy.tail).length = 0 := by
          simp; omega
        rw [this]
        simp only [List.getElem?_cons_zero]
        constructor
        · intro h; cases h
        · rintro ⟨h, _⟩; exact absurd h h2
  · rw [if_neg h1, if_neg h1]
    have h0 : l = 0 := by omega
    subst h0
    refine ⟨by simp, by simp, ?_, ?_⟩
    · constructor
      · intro h'; simp [h] at h'
      · rintro ⟨h', _⟩; omega
    · constructor
      · intro h'; simp [h] at h'
      · rintro ⟨h', _⟩; omega

example : ([5, 9, 1] : List ℚ).length = ([2, 1, 4] : List ℚ).length ∧
    (footprintFeatures [10, 11, 12] ([5, 9, 1] : List ℚ) [2, 1, 4] 3).buyImb = [false, true, false] := by decide +kernel

/-- **C14 (longest run).** The signed run feature of a sequence of level signs: no run of equal non-zero signs is
longer than its absolute value; if it is non-zero there is such a run with its sign, and it is the first among
the runs of that length; if it is zero there is no imbalanced level. -/
theorem C14_longest_run (signs : List Int) (hs : ∀ s ∈ signs, s = -1 ∨ s = 0 ∨ s = 1) :
    let r := maxRunSigned signs
    (∀ i len s, SignRun signs i len s → len ≤ r.natAbs) ∧
    (r ≠ 0 → ∃ i, SignRun signs i r.natAbs r.sign ∧ ∀ j s, SignRun signs j r.natAbs s → i ≤ j) ∧
    (r = 0 → ∀ s ∈ signs, s = 0) := by
  intro r
  have inv := runInv_fold [] signs _ runInv_nil
  rw [List.nil_append] at inv
  set st := signs.foldl runStep ⟨0, 0, 0, 0⟩ with hst
  have hr : r = (st.maxRun : Int) * st.maxSign := rfl
  by_cases h0 : st.maxRun = 0
  · have hr0 : r = 0 := by rw [hr, h0]; simp
    refine ⟨?_, fun h => absurd hr0 h, ?_⟩
    · intro i len s h
      have := inv.max_le i len s h
      omega
    · intro _ s hs'
      by_contra hne
      obtain ⟨k, hk, rfl⟩ := List.getElem_of_mem hs'
      have : SignRun signs k 1 signs[k] := by
        refine ⟨hne, by omega, by omega, ?_⟩
        intro j h1 h2
        have : j = k := by omega
        subst this
        exact List.getElem?_eq_getElem hk
      have := inv.max_le _ _ _ this
      omega
  · obtain ⟨i, hi, hmin⟩ := inv.wit (Nat.pos_of_ne_zero h0)
    have hmem : st.maxSign ∈ signs := by
      have := hi.const i (le_refl _) (by omega)
      exact List.mem_of_getElem? this
    have hsg : st.maxSign = -1 ∨ st.maxSign = 1 := by
      rcases hs _ hmem with h | h | h
      · exact Or.inl h
      · exact absurd h hi.sign
      · exact Or.inr h
    have habs : r.natAbs = st.maxRun := by
      rw [hr]; rcases hsg with h | h <;> rw [h] <;> omega
    have hsign : r.sign = st.maxSign := by
      rw [hr]
      rcases hsg with h | h
      · rw [h, Int.sign_eq_neg_one_iff_neg]; omega
      · rw [h, Int.sign_eq_one_iff_pos]; omega
    refine ⟨?_, ?_, ?_⟩
    · intro i len s h
      rw [habs]; exact inv.max_le i len s h
    · intro _
      rw [habs, hsign]
      exact ⟨i, hi, hmin⟩
    · intro hr0
      rw [hr0] at habs
      simp at habs; omega

example : (∀ s ∈ ([1, 1, 0, -1, -1, -1, 1] : List Int), s = -1 ∨ s = 0 ∨ s = 1) ∧ maxRunSigned [1, 1, 0, -1, -1, -1, 1] = -3 := by
  decide +kernel

/-- **C14 (run feature of the footprint).** Give each level the sign `+1` if it is flagged as a buy imbalance,
otherwise `-1` if it is flagged as a sell imbalance, otherwise 0.  Then the feature is the signed length of the
longest (first on ties) run of consecutive levels with the same non-zero sign. -/
theorem C14_footprint_run (levels : List Int) (buy sell : List K) (m : K) (hl : buy.length = sell.length) :
    let st := footprintFeatures levels buy sell m
    let signs : List Int := (List.range buy.length).map (fun l =>
      if st.buyImb[l]? = some true then 1 else if st.sellImb[l]? = some true then -1 else 0)
    let r := st.maxRunSigned
    (∀ i len s, SignRun signs i len s → len ≤ r.natAbs) ∧
    (r ≠ 0 → ∃ i, SignRun signs i r.natAbs r.sign ∧ ∀ j s, SignRun signs j r.natAbs s → i ≤ j) ∧
    (r = 0 → ∀ s ∈ signs, s = 0) := by
  intro st signs r
  have hsl : signs.length = buy.length := by simp [signs]
  have hlens : st.buyImb.length = buy.length ∧ st.sellImb.length = buy.length := by
    cases hb : buy with
    | nil =>
      have hs : sell = [] := by rw [hb] at hl; exact List.length_eq_zero_iff.mp hl.symm
      simp [st, footprintFeatures, buyImbalances, sellImbalances, hb]
    | cons x xs =>
      have := C14_imbalance_flags levels buy sell m hl 0 (by rw [hb]; simp)
      rw [← hb]; exact ⟨this.1, this.2.1⟩
  have hz : signs = List.zipWith levelSign st.buyImb st.sellImb := by
    apply List.ext_getElem
    · simp [signs]; omega
    · intro l h1 h2
      rw [hsl] at h1
      simp only [signs, List.getElem_map, List.getElem_range, List.getElem_zipWith, levelSign]
      rw [List.getElem?_eq_getElem (by omega), List.getElem?_eq_getElem (by omega)]
      simp
  have hr : r = maxRunSigned signs := by rw [hz]; rfl
  have := C14_longest_run signs (by
    intro s hs
    obtain ⟨l, _, rfl⟩ := List.mem_map.mp hs
    split_ifs <;> simp)
  simp only [hr]
  exact this

example : ([5, 9, 9] : List ℚ).length = ([2, 1, 4] : List ℚ).length ∧
    (footprintFeatures [10, 11, 12] ([5, 9, 9] : List ℚ) [2, 1, 4] 3).maxRunSigned = 2 := by decide +kernel

/-- **C14 (counts).** With fewer than 65536 levels the per-bar imbalance totals are the numbers of flagged
levels. -/
theorem C14_imbalance_counts (rnd : K → Int) (m lowP highP : K) (ts : List (K × K × Int))
    (fp : Footprint K) (hfp : footprintBar rnd m lowP highP ts = .ok fp)
    (hn : fp.stats.buyImb.length < 65536 ∧ fp.stats.sellImb.length < 65536) :
    fp.buyImbSum = fp.stats.buyImb.count true ∧ fp.sellImbSum = fp.stats.sellImb.count true := by
  unfold footprintBar at hfp
  simp only at hfp
  split at hfp
  · cases hfp
  · cases Except.ok.inj hfp
    refine ⟨Nat.mod_eq_of_lt (lt_of_le_of_lt List.count_le_length hn.1),
      Nat.mod_eq_of_lt (lt_of_le_of_lt List.count_le_length hn.2)⟩

example : (footprintFeatures [100, 101, 102, 103] ([1, 56, 15, 0] : List ℚ) [0, 2, 181, 10] 3).buyImb =
    [false, true, true, false] := by decide +kernel
example : (footprintFeatures [100, 101, 102, 103] ([1, 56, 15, 0] : List ℚ) [0, 2, 181, 10] 3).maxRunSigned = 2 := by
  decide +kernel
example : maxRunSigned [1, 1, 0, -1, -1, 1] = 2 ∧ maxRunSigned [0, -1, -1, 1, 1, 1, -1] = 3 ∧
    maxRunSigned [1, -1, -1] = -2 := by decide

/-! ## C15 -/

/-- **C15 (COT).** The COT level is a level of maximal total volume, and the lowest such level. -/
theorem C15_cot_level (levels : List Int) (buy sell : List K) (m : K) (hl : buy.length = sell.length)
    (hlv : levels.length = buy.length) (hne : buy ≠ []) :
    ∃ i : Nat, ∃ (hi : i < buy.length),
      (footprintFeatures levels buy sell m).cot = levels[i] ∧
      (∀ (j : Nat) (hj : j < buy.length), buy[j] + sell[j] ≤ buy[i] + sell[i]) ∧
      (∀ (j : Nat) (hj : j < i), buy[j] + sell[j] < buy[i] + sell[i]) := by
  have hne' : List.zipWith (· + ·) buy sell ≠ [] := by
    intro h
    have := congrArg List.length h
    have h2 := List.length_pos_of_ne_nil hne
    rw [List.length_zipWith, List.length_nil] at this; omega
  obtain ⟨b, h1, h2, h3⟩ := argmax_spec (List.zipWith (· + ·) buy sell) hne'
  generalize hidef : argmax (List.zipWith (· + ·) buy sell) = i at h1 h3
  obtain ⟨hi, h1⟩ := List.getElem?_eq_some_iff.mp h1
  have hi' : i < buy.length := by rw [List.length_zipWith] at hi; omega
  refine ⟨i, hi', ?_, ?_, ?_⟩
  · show levels.getD (argmax (List.zipWith (· + ·) buy sell)) 0 = _
    rw [hidef]
    rw [List.getD_eq_getElem?_getD, List.getElem?_eq_getElem (by omega)]; rfl
  · intro j hj
    have := h2 j (buy[j] + sell[j]) (by rw [List.getElem?_eq_getElem (by simp; omega)]; simp)
    rw [← h1, List.getElem_zipWith] at this; exact this
  · intro j hj
    have := h3 j (buy[j] + sell[j]) hj (by rw [List.getElem?_eq_getElem (by simp; omega)]; simp)
    rw [← h1, List.getElem_zipWith] at this; exact this

example : ([10, 11, 12] : List Int).length = ([5, 9, 1] : List ℚ).length ∧
    (footprintFeatures [10, 11, 12] ([5, 9, 1] : List ℚ) [2, 1, 4] 3).cot = 11 := by decide +kernel

theorem sum_sub_sq (l : List K) (c : K) :
    (l.map (fun v => (v - c) ^ 2)).sum = (l.map (fun v => v ^ 2)).sum - 2 * c * l.sum + l.length * c ^ 2 := by
  induction l with
  | nil => simp
  | cons a l ih => simp only [List.map_cons, List.sum_cons, ih, List.length_cons]; push_cast; ring

theorem sum_map_div_const (l : List K) (c : K) : (l.map (fun v => v / c)).sum = l.sum / c := by
  induction l with
  | nil => simp
  | cons a l ih => simp only [List.map_cons, List.sum_cons, ih, add_div]

theorem sum_sq_le (l : List K) (h : ∀ v ∈ l, 0 ≤ v) : (l.map (fun v => v ^ 2)).sum ≤ l.sum ^ 2 := by
  induction l with
  | nil => simp
  | cons a l ih =>
    have h1 := ih (fun v hv => h v (by simp [hv]))
    have h2 : 0 ≤ l.sum := List.sum_nonneg (fun v hv => h v (by simp [hv]))
    have h3 := h a (by simp)
    simp only [List.map_cons, List.sum_cons]
    nlinarith [mul_nonneg h3 h2]

/-- **C15 (concentration).** For non-negative level volumes the concentration measure lies in `[0, 1 - 1/n]`, where
`n` is the number of levels. -/
theorem C15_gini_range (levels : List Int) (buy sell : List K) (m : K) (hl : buy.length = sell.length)
    (hlv : levels.length = buy.length) (hne : buy ≠ [])
    (hb : ∀ v ∈ buy, 0 ≤ v) (hs : ∀ v ∈ sell, 0 ≤ v) :
    0 ≤ (footprintFeatures levels buy sell m).vpGini ∧
    (footprintFeatures levels buy sell m).vpGini ≤ 1 - 1 / (buy.length : K) := by
  have hn : 0 < buy.length := List.length_pos_of_ne_nil hne
  have hnK : (1 : K) ≤ (buy.length : K) := by exact_mod_cast hn
  show 0 ≤ (profileStats levels (List.zipWith (· + ·) buy sell)).2 ∧
    (profileStats levels (List.zipWith (· + ·) buy sell)).2 ≤ _
  set total := List.zipWith (· + ·) buy sell with htot
  have htl : total.length = buy.length := by simp [htot]; omega
  have hnn : ∀ v ∈ total, 0 ≤ v := by
    intro v hv
    obtain ⟨i, hi, rfl⟩ := List.getElem_of_mem hv
    simp only [htot, List.getElem_zipWith]
    exact add_nonneg (hb _ (List.getElem_mem _)) (hs _ (List.getElem_mem _))
  unfold profileStats
  by_cases hpos : total.sum > 0 ∧ levels.length > 0
  · simp only [if_pos hpos]
    have hp : (total.map (fun v => v / total.sum)).sum = 1 := by
      rw [sum_map_div_const]
      exact div_self (ne_of_gt hpos.1)
    have hpn : ∀ v ∈ total.map (fun v => v / total.sum), 0 ≤ v := by
      intro v hv
      obtain ⟨w, hw, rfl⟩ := List.mem_map.mp hv
      exact div_nonneg (hnn w hw) (le_of_lt hpos.1)
    have hsq := sum_sq_le _ hpn
    rw [hp, List.map_map] at hsq
    have hcs := sum_sub_sq (total.map (fun v => v / total.sum)) (1 / (buy.length : K))
    rw [hp, List.map_map, List.map_map, List.length_map, htl] at hcs
    have hge : 0 ≤ (total.map ((fun v => (v - 1 / (buy.length : K)) ^ 2) ∘ fun v => v / total.sum)).sum :=
      List.sum_nonneg (by
        intro v hv
        obtain ⟨w, _, rfl⟩ := List.mem_map.mp hv
        exact sq_nonneg _)
    rw [hcs] at hge
    simp only [Function.comp_def] at hsq hge
    have e : (buy.length : K) * (1 / (buy.length : K)) ^ 2 = 1 / (buy.length : K) := by
      field_simp
    rw [e] at hge
    constructor
    · linarith
    · linarith
  · simp only [if_neg hpos]
    refine ⟨le_refl _, ?_⟩
    rw [sub_nonneg, div_le_one (by linarith)]
    exact hnK

example : (∀ v ∈ ([5, 9, 1] : List ℚ), 0 ≤ v) ∧ (∀ v ∈ ([2, 1, 4] : List ℚ), 0 ≤ v) ∧
    (footprintFeatures [10, 11, 12] ([5, 9, 1] : List ℚ) [2, 1, 4] 3).vpGini = 1 - (49 + 100 + 25) / 484 := by decide +kernel

/-- **C15 (violation: skew).** The volume-profile skew is documented as "positive = buy pressure above VWAP", but it
is the volume-weighted mean deviation from the volume-weighted mean: it is 0 for every profile (in exact
arithmetic), so it reports nothing. -/
theorem C15_skew_always_zero (levels : List Int) (buy sell : List K) (m : K) (hl : buy.length = sell.length)
    (hlv : levels.length = buy.length) :
    (footprintFeatures levels buy sell m).vpSkew = 0 := by
  show (profileStats levels (List.zipWith (· + ·) buy sell)).1 = 0
  set total := List.zipWith (· + ·) buy sell with htot
  have htl : total.length = levels.length := by simp [htot]; omega
  unfold profileStats
  by_cases hpos : total.sum > 0 ∧ levels.length > 0
  · simp only [if_pos hpos]
    have hz : ∀ (ls : List Int) (vs : List K) (c : K), vs.length = ls.length →
        (List.zipWith (fun (p : Int) v => ((p : K) - c) * v) ls vs).sum =
          (List.zipWith (fun (p : Int) v => (p : K) * v) ls vs).sum - c * vs.sum := by
      intro ls
      induction ls with
      | nil => intro vs c h; cases vs with
        | nil => simp
        | cons _ _ => simp at h
      | cons p ls ih => intro vs c h; cases vs with
        | nil => simp at h
        | cons v vs =>
          simp only [List.length_cons, Nat.add_right_cancel_iff] at h
          simp only [List.zipWith_cons_cons, List.sum_cons, ih vs c h]
          ring
    rw [hz _ _ _ htl, div_mul_cancel₀ _ (ne_of_gt hpos.1), sub_self, zero_div]
  · simp only [if_neg hpos]

/- Buy volume entirely above, sell volume entirely below the VWAP: the skew is 0 all the same. -/
example : (footprintFeatures [100, 101, 102, 103] ([0, 0, 5, 9] : List ℚ) [4, 1, 0, 0] 3) =
    { buyImb := [false, false, true, true], sellImb := [true, false, false, false], maxRunSigned := 2,
      cot := 103, vpSkew := 0, vpGini := 1 - 123 / 361 } := by decide +kernel
example : footprintBar (fun x : ℚ => (x + 1/2).floor) 3 100 102 [(100, 2, 1), (102, 1, -1), (101, 4, -1), (102, 3, 1)] =
    .ok { priceLevels := [100, 101, 102],
          lv := { buyVol := [2, 0, 3], sellVol := [0, 4, 1], buyTicks := [1, 0, 1], sellTicks := [0, 1, 1] },
          stats := { buyImb := [false, false, false], sellImb := [false, false, false], maxRunSigned := 0,
                     cot := 101, vpSkew := 0, vpGini := 16/25 },
          buyImbSum := 0, sellImbSum := 0 } := by decide +kernel

end FinML
