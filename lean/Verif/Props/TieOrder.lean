/-
C159 (the order of trades that carry the same timestamp).  `finmlkit/bar/base.py:comp_bar_ohlcv`,
`comp_bar_directional_features`, `comp_bar_trade_size_features`, `comp_bar_footprints` and
`finmlkit/bar/data_model.py:TradesData._sort_trades`.
-/
import Verif.Props.MergeFootprints
import Verif.Props.SortTrades
import Verif.Props.TradeSize

set_option linter.unusedSectionVars false

namespace FinML

variable {K : Type} [Field K] [LinearOrder K] [IsStrictOrderedRing K]

/-! ## Specification -/

/-- The same trades, both times in time order: the two lists differ only in the order of trades with equal timestamps. -/
structure TieReorder (l l' : List (MTrade K)) : Prop where
  perm : l.Perm l'
  sorted : (l.map (·.ts)).Pairwise (· ≤ ·)
  sorted' : (l'.map (·.ts)).Pairwise (· ≤ ·)

/-- The columns of a bar that do not depend on the order of its trades.  High and low of an empty bar repeat the price of
an earlier trade, so they are only included for bars with trades. -/
structure SameSummary (r r' : Ohlcv K) : Prop where
  volume : r'.volume = r.volume
  vwap : r'.vwap = r.vwap
  trades : r'.trades = r.trades
  median : r'.median = r.median
  high : r.trades ≠ 0 → r'.high = r.high
  low : r.trades ≠ 0 → r'.low = r.low

/-! ## Lemmas -/

theorem TieReorder.ts_eq {l l' : List (MTrade K)} (h : TieReorder l l') : l'.map (·.ts) = l.map (·.ts) :=
  List.Perm.eq_of_pairwise' (r := (· ≤ ·)) h.sorted' h.sorted (h.perm.map _).symm

theorem TieReorder.window {l l' : List (MTrade K)} (h : TieReorder l l') (u v : Int) :
    (l.filter (fun t => decide (u < t.ts ∧ t.ts ≤ v))).Perm (l'.filter (fun t => decide (u < t.ts ∧ t.ts ≤ v))) :=
  h.perm.filter _

theorem insertionSort_perm_eq (l l' : List K) (h : l.Perm l') :
    l.insertionSort (· ≤ ·) = l'.insertionSort (· ≤ ·) :=
  List.Perm.eq_of_pairwise' (r := (· ≤ ·)) (List.pairwise_insertionSort _ _) (List.pairwise_insertionSort _ _)
    (((List.perm_insertionSort _ l).trans h).trans (List.perm_insertionSort _ l').symm)

theorem isMedian_perm (vs vs' : List K) (h : vs.Perm vs') (m : K) (hm : IsMedian vs m) : IsMedian vs' m := by
  obtain ⟨lo, hi, ⟨a1, a2, a3⟩, ⟨b1, b2, b3⟩, e⟩ := hm
  refine ⟨lo, hi, ⟨h.subset a1, ?_, ?_⟩, ⟨h.subset b1, ?_, ?_⟩, e⟩
  · rw [← h.length_eq, ← h.countP_eq]; exact a2
  · rw [← h.length_eq, ← h.countP_eq]; exact a3
  · rw [← h.length_eq, ← h.countP_eq]; exact b2
  · rw [← h.length_eq, ← h.countP_eq]; exact b3

theorem isOrderStat_unique (l : List K) (k : Nat) (x y : K) (hx : IsOrderStat l k x) (hy : IsOrderStat l k y) :
    x = y := by
  obtain ⟨-, a2, a3⟩ := hx
  obtain ⟨-, b2, b3⟩ := hy
  have key : ∀ p q : K, p < q → l.countP (fun z => decide (z ≤ p)) ≤ l.countP (fun z => decide (z < q)) := by
    intro p q hpq
    apply List.countP_mono_left
    intro z _ hz
    have := of_decide_eq_true hz
    exact decide_eq_true (lt_of_le_of_lt this hpq)
  rcases lt_trichotomy x y with h | h | h
  · have := key x y h; omega
  · exact h
  · have := key y x h; omega

theorem isMedian_unique (l : List K) (m m' : K) (h : IsMedian l m) (h' : IsMedian l m') : m = m' := by
  obtain ⟨lo, hi, a, b, e⟩ := h
  obtain ⟨lo', hi', a', b', e'⟩ := h'
  rw [e, e', isOrderStat_unique l _ lo lo' a a', isOrderStat_unique l _ hi hi' b b']

theorem zipWith_maps {α : Type} (w : List α) (f g : α → K) :
    List.zipWith (· * ·) (w.map f) (w.map g) = w.map (fun t => f t * g t) := by
  rw [List.zipWith_map, List.zipWith_self]

/-- Two summaries of the same non-empty multiset of trades. -/
theorem sameSummary_of_perm (w w' : List (MTrade K)) (h : w.Perm w') (r r' : Ohlcv K)
    (hr : IsOhlcvOf (w.map (·.price)) (w.map (·.amount)) r)
    (hr' : IsOhlcvOf (w'.map (·.price)) (w'.map (·.amount)) r') : SameSummary r r' := by
  have hp := h.map (·.price)
  have ha := h.map (·.amount)
  have hsum : (w'.map (·.amount)).sum = (w.map (·.amount)).sum := ha.symm.sum_eq
  have hdot : (List.zipWith (· * ·) (w'.map (·.price)) (w'.map (·.amount))).sum =
      (List.zipWith (· * ·) (w.map (·.price)) (w.map (·.amount))).sum := by
    rw [zipWith_maps, zipWith_maps]; exact (h.map _).symm.sum_eq
  refine ⟨by rw [hr.volume, hr'.volume, hsum], ?_, ?_, ?_, fun _ => ?_, fun _ => ?_⟩
  · by_cases hz : 0 < (w.map (·.amount)).sum
    · have e1 := hr.vwap hz
      have e2 := hr'.vwap (by rw [hsum]; exact hz)
      rw [hdot, ← e1, hsum] at e2
      exact mul_right_cancel₀ (ne_of_gt hz) e2
    · rw [hr.vwap_zero (not_lt.mp hz), hr'.vwap_zero (by rw [hsum]; exact not_lt.mp hz)]
  · rw [hr.trades, hr'.trades, hp.length_eq]
  · exact isMedian_unique _ _ _ hr'.median (isMedian_perm _ _ ha _ hr.median)
  · exact le_antisymm (hr.high_max _ (hp.mem_iff.mpr hr'.high_mem)) (hr'.high_max _ (hp.mem_iff.mp hr.high_mem))
  · exact le_antisymm (hr'.low_min _ (hp.mem_iff.mp hr.low_mem)) (hr.low_min _ (hp.mem_iff.mpr hr'.low_mem))

theorem timeClock_pair_le (ts : List Int) (I : Int) (hI : 0 < I) (hne : ts ≠ []) (hs : ts.Pairwise (· ≤ ·))
    (u v : Int) (huv : (u, v) ∈ (timeBarClock ts I).zip (timeBarClock ts I).tail) : u ≤ v := by
  obtain ⟨k, hk, e⟩ := List.getElem_of_mem huv
  rw [List.length_zip, List.length_tail] at hk
  rw [List.getElem_zip, List.getElem_tail] at e
  have hC := C01_timeBars_clock ts I hI hne hs
  have := hC.2.1 k (by simp only [timeBarIndexer]; omega)
  simp only [timeBarIndexer] at this
  have e1 := congrArg Prod.fst e
  have e2 := congrArg Prod.snd e
  simp only at e1 e2
  omega

theorem modify_comm {α : Type} (l : List α) (i j : Nat) (f g : α → α) (h : ∀ x, f (g x) = g (f x)) :
    (l.modify i f).modify j g = (l.modify j g).modify i f := by
  apply List.ext_getElem?
  intro n
  simp only [List.getElem?_modify]
  cases l[n]? with
  | none => rfl
  | some x => by_cases h1 : i = n <;> by_cases h2 : j = n <;> simp [h1, h2, h]

/-- Two trades can be booked in either order. -/
theorem levelStep_comm (rnd : K → Int) (low : Int) (n : Nat) (st : Levels K) (a b : K × K × Int) :
    (levelStep rnd low n st a).bind (fun s => levelStep rnd low n s b) =
      (levelStep rnd low n st b).bind (fun s => levelStep rnd low n s a) := by
  have e1 : ∀ (l : List K) (i j : Nat) (x y : K), (l.modify i (· + x)).modify j (· + y) =
      (l.modify j (· + y)).modify i (· + x) := fun l i j x y => modify_comm l i j _ _ (fun z => by ring)
  have e2 : ∀ (l : List Int) (i j : Nat), (l.modify i (· + 1)).modify j (· + 1) =
      (l.modify j (· + 1)).modify i (· + 1) := fun l i j => modify_comm l i j _ _ (fun z => rfl)
  unfold levelStep
  simp only
  by_cases ha : 0 ≤ rnd a.1 - low ∧ rnd a.1 - low < n <;> by_cases hb : 0 ≤ rnd b.1 - low ∧ rnd b.1 - low < n
  · rw [if_pos ha, if_pos hb]
    by_cases a1 : a.2.2 = 1
    · by_cases b1 : b.2.2 = 1
      · simp only [a1, b1, if_true, Except.bind, if_pos ha, if_pos hb]
        rw [e1, e2]
      · by_cases b2 : b.2.2 = -1
        · simp only [a1, b2, if_true, Except.bind, if_pos ha, if_pos hb]; rfl
        · simp only [a1, b1, b2, if_true, if_false, Except.bind, if_pos ha, if_pos hb]
    · by_cases a2 : a.2.2 = -1
      · by_cases b1 : b.2.2 = 1
        · simp only [a2, b1, if_true, Except.bind, if_pos ha, if_pos hb]; rfl
        · by_cases b2 : b.2.2 = -1
          · simp only [a2, b2, show ((-1 : Int) = 1) = False by simp, if_false, if_true, Except.bind, if_pos ha, if_pos hb]
            rw [e1, e2]
          · simp only [a1, a2, b1, b2, if_true, if_false, Except.bind, if_pos ha, if_pos hb,
              show ((-1 : Int) = 1) = False by simp]
      · by_cases b1 : b.2.2 = 1
        · simp only [a1, a2, b1, if_true, if_false, Except.bind, if_pos ha, if_pos hb]
        · by_cases b2 : b.2.2 = -1
          · simp only [a1, a2, b1, b2, if_true, if_false, Except.bind, if_pos ha, if_pos hb,
              show ((-1 : Int) = 1) = False by simp]
          · simp only [a1, a2, b1, b2, if_false, Except.bind, if_pos ha, if_pos hb]
  · rw [if_pos ha, if_neg hb]
    by_cases a1 : a.2.2 = 1
    · simp only [a1, if_true, Except.bind, if_neg hb]
    · by_cases a2 : a.2.2 = -1 <;> simp only [a1, a2, if_true, if_false, Except.bind, if_neg hb,
        show ((-1 : Int) = 1) = False by simp]
  · rw [if_neg ha, if_pos hb]
    by_cases b1 : b.2.2 = 1
    · simp only [b1, if_true, Except.bind, if_neg ha]
    · by_cases b2 : b.2.2 = -1 <;> simp only [b1, b2, if_true, if_false, Except.bind, if_neg ha,
        show ((-1 : Int) = 1) = False by simp]
  · rw [if_neg ha, if_neg hb]; rfl

theorem levelLoop_cons (rnd : K → Int) (low : Int) (n : Nat) (st : Levels K) (a : K × K × Int)
    (l : List (K × K × Int)) :
    levelLoop rnd low n st (a :: l) = (levelStep rnd low n st a).bind (fun s => levelLoop rnd low n s l) := by
  rw [levelLoop]
  cases levelStep rnd low n st a <;> rfl

theorem levelLoop_perm (rnd : K → Int) (low : Int) (n : Nat) (l l' : List (K × K × Int)) (h : l.Perm l') :
    ∀ st, levelLoop rnd low n st l = levelLoop rnd low n st l' := by
  induction h with
  | nil => intro st; rfl
  | cons a _ ih => intro st; rw [levelLoop_cons, levelLoop_cons]; congr 1; funext s; exact ih s
  | swap a b l =>
    intro st
    have hc := levelStep_comm rnd low n st b a
    have e : ∀ x y : K × K × Int, levelLoop rnd low n st (x :: y :: l) =
        ((levelStep rnd low n st x).bind (fun s => levelStep rnd low n s y)).bind
          (fun s => levelLoop rnd low n s l) := by
      intro x y
      rw [levelLoop_cons]
      cases levelStep rnd low n st x with
      | error e => rfl
      | ok s => exact levelLoop_cons rnd low n s y l
    rw [e, e, hc]
  | trans _ _ ih1 ih2 => intro st; rw [ih1, ih2]

/-- Two trades at one instant. -/
def tieDemo : List (MTrade ℚ) := [⟨1, 10, 1, 1⟩, ⟨3, 10, 1, 1⟩, ⟨3, 12, 4, -1⟩, ⟨7, 11, 2, 1⟩]
/-- The same with the two trades at time 3 exchanged. -/
def tieDemo' : List (MTrade ℚ) := [⟨1, 10, 1, 1⟩, ⟨3, 12, 4, -1⟩, ⟨3, 10, 1, 1⟩, ⟨7, 11, 2, 1⟩]

theorem tieDemo_reorder : TieReorder tieDemo tieDemo' := by
  refine ⟨?_, by decide, by decide⟩
  unfold tieDemo tieDemo'
  exact List.Perm.cons _ (List.Perm.swap _ _ _)

/-! ## C159 -/

/-- **C159.** Whatever the order of the trades with equal timestamps, time bars have the same stamps, volumes,
volume-weighted prices, trade counts and median trade sizes, and bars with trades the same highs and lows. -/
theorem C159_time_bars (log log1p : K → K) (rndOf : K → K → Int) (inferTick : List K → Except String K)
    (l l' : List (MTrade K)) (h : TieReorder l l') (I : Int) (hI : 0 < I) (hne : l ≠ []) :
    ∃ rows rows',
      (kitCall log log1p rndOf inferTick (mergedTable l) (.time I) BuilderState.fresh .ohlcv).2 = .ok (.bars rows) ∧
      (kitCall log log1p rndOf inferTick (mergedTable l') (.time I) BuilderState.fresh .ohlcv).2 = .ok (.bars rows') ∧
      List.Forall₂ (fun r r' => r'.1 = r.1 ∧ SameSummary r.2 r'.2) rows rows' := by
  have hne' : l' ≠ [] := fun e => hne (by have := h.perm; rw [e] at this; exact this.eq_nil)
  refine ⟨_, _, time_table_eq log log1p rndOf inferTick (mergedTable l) I hI (by simpa [mergedTable] using hne)
      h.sorted (by simp only [mergedTable, List.length_map]),
    time_table_eq log log1p rndOf inferTick (mergedTable l') I hI (by simpa [mergedTable] using hne') h.sorted'
      (by simp only [mergedTable, List.length_map]), ?_⟩
  have hts := h.ts_eq
  simp only [mergedTable]
  rw [show timeBarClock (l'.map (·.ts)) I = timeBarClock (l.map (·.ts)) I by rw [hts]]
  rw [List.forall₂_map_left_iff, List.forall₂_map_right_iff, List.forall₂_same]
  rintro ⟨u, v⟩ huv
  refine ⟨rfl, ?_⟩
  have hle := timeClock_pair_le _ I hI (by simpa using hne) h.sorted u v huv
  obtain ⟨a1, a2⟩ := windowBar_cases l (·.ts) (·.price) (·.amount) h.sorted u v hle
  obtain ⟨b1, b2⟩ := windowBar_cases l' (·.ts) (·.price) (·.amount) h.sorted' u v hle
  have hw := h.window u v
  by_cases he : l.filter (fun t => decide (u < t.ts ∧ t.ts ≤ v)) = []
  · have he' : l'.filter (fun t => decide (u < t.ts ∧ t.ts ≤ v)) = [] := by
      rw [he] at hw; exact hw.nil_eq.symm
    rw [a2 he _ rfl, b2 he' _ rfl]
    exact ⟨rfl, rfl, rfl, rfl, fun c => absurd rfl c, fun c => absurd rfl c⟩
  · have he' : l'.filter (fun t => decide (u < t.ts ∧ t.ts ≤ v)) ≠ [] := by
      intro e; rw [e] at hw; exact he hw.eq_nil
    exact sameSummary_of_perm _ _ hw _ _ (a1 he) (b1 he')

example : TieReorder tieDemo tieDemo' ∧ tieDemo ≠ tieDemo' := ⟨tieDemo_reorder, by decide +kernel⟩
example : splitDemoRows (mergedTable tieDemo) = [(5, 3, [10, 12, 10, 12, 6]), (10, 1, [11, 11, 11, 11, 2]),
      (15, 0, [11, 11, 11, 11, 0])] ∧
    splitDemoRows (mergedTable tieDemo') = [(5, 3, [10, 12, 10, 10, 6]), (10, 1, [11, 11, 11, 11, 2]),
      (15, 0, [11, 11, 11, 11, 0])] := by
  decide +kernel

/-- **C159 (buy and sell sides).** The bar of the trades in `(u, v]` has the same number, volume and turnover of buys and
of sells. -/
theorem C159_directional (l l' : List (MTrade K)) (h : TieReorder l l') (u v : Int) (huv : u ≤ v) :
    let m := mergedTable l
    let m' := mergedTable l'
    let row := dirBar m.prices m.amounts m.sides ((searchRight m.ts u : Int) - 1) ((searchRight m.ts v : Int) - 1)
    let row' := dirBar m'.prices m'.amounts m'.sides ((searchRight m'.ts u : Int) - 1) ((searchRight m'.ts v : Int) - 1)
    row'.ticksBuy = row.ticksBuy ∧ row'.ticksSell = row.ticksSell ∧ row'.volBuy = row.volBuy ∧
      row'.volSell = row.volSell ∧ row'.dolBuy = row.dolBuy ∧ row'.dolSell = row.dolSell := by
  intro m m' row row'
  have key : ∀ (k : List (MTrade K)), (k.map (·.ts)).Pairwise (· ≤ ·) →
      let w := k.filter (fun t => decide (u < t.ts ∧ t.ts ≤ v))
      let z := fun s => (w.filter (fun t => decide (t.side = s)))
      let d := dirBar (k.map (·.price)) (k.map (·.amount)) (k.map (·.side)) ((searchRight (k.map (·.ts)) u : Int) - 1)
        ((searchRight (k.map (·.ts)) v : Int) - 1)
      d.ticksBuy = (z 1).length ∧ d.ticksSell = (z (-1)).length ∧
      d.volBuy = ((z 1).map (·.amount)).sum ∧ d.volSell = ((z (-1)).map (·.amount)).sum ∧
      d.dolBuy = ((z 1).map (fun t => t.price * t.amount)).sum ∧
      d.dolSell = ((z (-1)).map (fun t => t.price * t.amount)).sum := by
    intro k hs w z d
    have hl := searchRight_le_length (k.map (·.ts)) v
    have hm := searchRight_le_of_le (k.map (·.ts)) huv
    rw [List.length_map] at hl
    have d1 := C10_directional_split (k.map (·.price)) (k.map (·.amount)) (k.map (·.side))
      ((searchRight (k.map (·.ts)) u : Int) - 1) ((searchRight (k.map (·.ts)) v : Int) - 1) (by simp) (by simp)
      (by omega) (by omega) (by rw [List.length_map]; omega)
    have w1 := window_sided k (·.ts) (·.side) (·.price) (·.amount) hs u v huv
    have o1 : ∀ s, ofSide s (sliceAfter (sidedTrades (k.map (·.side)) (k.map (·.price)) (k.map (·.amount)))
        ((searchRight (k.map (·.ts)) u : Int) - 1) ((searchRight (k.map (·.ts)) v : Int) - 1)) =
        (z s).map (fun t => (⟨t.side, t.price, t.amount⟩ : SidedTrade K)) := by
      intro s
      rw [w1, ofSide, List.filter_map]; rfl
    simp only [o1, List.map_map, List.length_map] at d1
    exact d1
  obtain ⟨p1, p2, p3, p4, p5, p6⟩ := key l h.sorted
  obtain ⟨q1, q2, q3, q4, q5, q6⟩ := key l' h.sorted'
  have hz : ∀ s, ((l'.filter (fun t => decide (u < t.ts ∧ t.ts ≤ v))).filter (fun t => decide (t.side = s))).Perm
      ((l.filter (fun t => decide (u < t.ts ∧ t.ts ≤ v))).filter (fun t => decide (t.side = s))) :=
    fun s => ((h.window u v).filter _).symm
  refine ⟨?_, ?_, ?_, ?_, ?_, ?_⟩
  · exact q1.trans ((congrArg _ (hz 1).length_eq).trans p1.symm)
  · exact q2.trans ((congrArg _ (hz (-1)).length_eq).trans p2.symm)
  · exact q3.trans (((hz 1).map _).sum_eq.trans p3.symm)
  · exact q4.trans (((hz (-1)).map _).sum_eq.trans p4.symm)
  · exact q5.trans (((hz 1).map _).sum_eq.trans p5.symm)
  · exact q6.trans (((hz (-1)).map _).sum_eq.trans p6.symm)

example : (0 : Int) ≤ 5 ∧ (dirBar (mergedTable tieDemo').prices (mergedTable tieDemo').amounts (mergedTable tieDemo').sides
    (-1) 2).volSell = 4 := by decide +kernel

/-- **C159 (trade sizes).** The trade-size statistics of a bar do not depend on the order of its trades. -/
theorem C159_trade_sizes (log1p : K → K) (mult : K) (theta : Option K) (a a' : List K) (h : a.Perm a') :
    sizeBar log1p mult theta a' = sizeBar log1p mult theta a := by
  have hb : ∀ thr, blockVolume thr a' = blockVolume thr a := by
    intro thr
    unfold blockVolume
    cases thr with
    | none => rfl
    | some t =>
      refine h.symm.foldl_eq' ?_ 0
      intro x _ y _ z
      split_ifs <;> ring
  have hp : percentile95 a' = percentile95 a := by
    unfold percentile95
    rw [insertionSort_perm_eq _ _ h.symm, h.symm.length_eq]
  have hn : a' = [] ↔ a = [] := by
    constructor
    · intro e; rw [e] at h; exact h.eq_nil
    · intro e; rw [e] at h; exact h.nil_eq.symm
  have hg : ∀ t : K, (a'.map (fun x => (x / t) ^ 2)).sum = (a.map (fun x => (x / t) ^ 2)).sum :=
    fun t => (h.symm.map _).sum_eq
  unfold sizeBar
  simp only [hn]
  unfold sizeRow
  simp only [h.symm.sum_eq, h.symm.length_eq, hp, hb, hg]

example : [1, 4, 2].Perm [(4 : ℚ), 1, 2] ∧
    (sizeBar (fun x : ℚ => x) 2 (some 1) [4, 1, 2]).pctBlock = some (4/7) := by decide +kernel

/-- **C159 (trade sizes of a bar).** In particular those of the trades in `(u, v]`. -/
theorem C159_trade_sizes_bar (log1p : K → K) (mult : K) (theta : Option K) (l l' : List (MTrade K))
    (h : TieReorder l l') (u v : Int) (huv : u ≤ v) :
    let m := mergedTable l
    let m' := mergedTable l'
    sizeBar log1p mult theta
        (barSlice m'.amounts ((searchRight m'.ts u : Int) - 1) ((searchRight m'.ts v : Int) - 1)) =
      sizeBar log1p mult theta
        (barSlice m.amounts ((searchRight m.ts u : Int) - 1) ((searchRight m.ts v : Int) - 1)) := by
  intro m m'
  have key : ∀ k : List (MTrade K), (k.map (·.ts)).Pairwise (· ≤ ·) →
      barSlice (k.map (·.amount)) ((searchRight (k.map (·.ts)) u : Int) - 1) ((searchRight (k.map (·.ts)) v : Int) - 1) =
        (k.filter (fun t => decide (u < t.ts ∧ t.ts ≤ v))).map (·.amount) := by
    intro k hs
    have e := tradesIn_slice (k.map (·.ts)) (k.map (·.amount)) (by simp) hs u v huv
    have e' : tradesIn (k.map (·.ts)) (k.map (·.amount)) u v =
        (k.filter (fun t => decide (u < t.ts ∧ t.ts ≤ v))).map (·.amount) := by
      unfold tradesIn
      rw [List.zip_map', List.filter_map, List.map_map]; rfl
    rw [← e', e]
    rfl
  apply C159_trade_sizes
  have e1 := key l h.sorted
  have e2 := key l' h.sorted'
  have : ((l.filter (fun t => decide (u < t.ts ∧ t.ts ≤ v))).map (·.amount)).Perm
    ((l'.filter (fun t => decide (u < t.ts ∧ t.ts ≤ v))).map (·.amount)) := (h.window u v).map _
  rw [← e1, ← e2] at this
  exact this

/-- **C159 (footprints).** The footprint of a bar, and whether it is rejected, does not depend on the order of its
trades: all levels, volumes, counts, imbalances and statistics are the same. -/
theorem C159_footprint (rnd : K → Int) (mult lo hi : K) (a a' : List (K × K × Int)) (h : a.Perm a') :
    footprintBar rnd mult lo hi a' = footprintBar rnd mult lo hi a := by
  unfold footprintBar
  simp only
  rw [levelLoop_perm rnd _ _ a a' h]

example : ((footprintBar (fun x : ℚ => x.num) 3 10 12 [(12, 4, -1), (10, 1, 1)]).toOption.map
    (fun f => (f.lv.buyVol, f.lv.sellVol))) = some ([1, 0, 0], [0, 0, 4]) := by decide +kernel
example : (footprintBar (fun x : ℚ => x.num) 3 10 12 [(12, 4, -1), (13, 1, 1)]).toOption = none := by decide +kernel

/-- **C159 (footprints of a bar).** In particular that of the trades in `(u, v]`. -/
theorem C159_footprint_bar (rnd : K → Int) (mult lo hi : K) (l l' : List (MTrade K)) (h : TieReorder l l') (u v : Int)
    (huv : u ≤ v) :
    let m := mergedTable l
    let m' := mergedTable l'
    footprintBar rnd mult lo hi (footprintTrades m'.prices m'.amounts m'.sides
        ((searchRight m'.ts u : Int) - 1) ((searchRight m'.ts v : Int) - 1)) =
      footprintBar rnd mult lo hi (footprintTrades m.prices m.amounts m.sides
        ((searchRight m.ts u : Int) - 1) ((searchRight m.ts v : Int) - 1)) := by
  intro m m'
  apply C159_footprint
  simp only [m, m', mergedTable]
  rw [window_footprint l (·.ts) (·.side) (·.price) (·.amount) h.sorted u v huv,
    window_footprint l' (·.ts) (·.side) (·.price) (·.amount) h.sorted' u v huv]
  exact (h.window u v).map _

/-- **C159 (distinct ids fix the order).** If all trade ids are distinct, the prepared table does not depend on the order
of the raw rows nor on which sort by id is used: ties in time are in id order. -/
theorem C159_ids_fix_order (sortId sortId' : List (TradeRow K) → List (TradeRow K)) (hs : SortsById sortId)
    (hs' : SortsById sortId') (rows rows' : List (TradeRow K)) (h : rows.Perm rows') (hid : (rows.map (·.id)).Nodup) :
    sortTrades sortId' rows' = sortTrades sortId rows := by
  obtain ⟨a1, -, -, -, a5⟩ := C18_sort_rows sortId hs rows
  obtain ⟨b1, -, -, -, b5⟩ := C18_sort_rows sortId' hs' rows'
  have hperm : (sortTrades sortId' rows').Perm (sortTrades sortId rows) :=
    ((b5 ((h.map _).nodup_iff.mp hid)).trans h.symm).trans (a5 hid).symm
  refine List.Perm.eq_of_pairwise (le := fun a b => a.ts < b.ts ∨ (a.ts = b.ts ∧ a.id < b.id)) ?_ b1 a1 hperm
  intro a b _ _ h1 h2
  omega

example : SortsById (sortByIdIns : List (TradeRow ℚ) → _) ∧
    (([⟨5, 20, 1, 2⟩, ⟨5, 10, 1, 1⟩] : List (TradeRow ℚ)).map (·.id)).Nodup ∧
    sortTrades sortByIdIns ([⟨5, 20, 1, 2⟩, ⟨5, 10, 1, 1⟩] : List (TradeRow ℚ)) = [⟨5, 10, 1, 1⟩, ⟨5, 20, 1, 2⟩] :=
  ⟨sortByIdIns_sorts, by decide, by decide +kernel⟩

/-! ## What does depend on the order -/

/-- **C159 (empty bars).** Empty bars repeat the price of the last trade before them, so their prices do depend on the
order: with two trades at time 1, at 10 and 12, the bar ending at 4 has no trades and all its prices are 12 in one order
and 10 in the other. -/
theorem C159_empty_bar_differs :
    let p : List ℚ := [10, 12, 11]
    let p' : List ℚ := [12, 10, 11]
    let ts : List Int := [1, 1, 5]
    let a : List ℚ := [1, 1, 1]
    (ohlcvBar p a ((searchRight ts 2 : Int) - 1) ((searchRight ts 4 : Int) - 1)).high = 12 ∧
    (ohlcvBar p' a ((searchRight ts 2 : Int) - 1) ((searchRight ts 4 : Int) - 1)).high = 10 ∧
    (ohlcvBar p a ((searchRight ts 2 : Int) - 1) ((searchRight ts 4 : Int) - 1)).trades = 0 := by decide +kernel

/-- **C159 (open and close differ).** Opening and closing prices of a time bar depend on the order. -/
theorem C159_open_close_differ :
    let m := mergedTable tieDemo
    let m' := mergedTable tieDemo'
    let row := ohlcvBar m.prices m.amounts ((searchRight m.ts 1 : Int) - 1) ((searchRight m.ts 5 : Int) - 1)
    let row' := ohlcvBar m'.prices m'.amounts ((searchRight m'.ts 1 : Int) - 1) ((searchRight m'.ts 5 : Int) - 1)
    (row.opn, row.close) = (10, 12) ∧ (row'.opn, row'.close) = (12, 10) ∧
      (row.high, row.low, row.volume) = (row'.high, row'.low, row'.volume) := by decide +kernel

/-- **C159 (order-flow extremes and spread differ).** So do the extremes of the running imbalances and the effective
spread. -/
theorem C159_flow_path_differs :
    let m := mergedTable tieDemo
    let m' := mergedTable tieDemo'
    let row := dirBar m.prices m.amounts m.sides ((searchRight m.ts 0 : Int) - 1) ((searchRight m.ts 5 : Int) - 1)
    let row' := dirBar m'.prices m'.amounts m'.sides ((searchRight m'.ts 0 : Int) - 1) ((searchRight m'.ts 5 : Int) - 1)
    (row.cumTicksMin, row.cumTicksMax) = (1, 2) ∧ (row'.cumTicksMin, row'.cumTicksMax) = (0, 1) ∧
      row.meanSpread ≠ row'.meanSpread := by decide +kernel

/-- **C159 (tick bars).** Tick bars close at the same trade numbers and times, whatever the order. -/
theorem C159_tick_stamps (l l' : List (MTrade K)) (h : TieReorder l l') (n : Int) :
    let m := mergedTable l
    let m' := mergedTable l'
    tickBarIndexer m'.ts n = tickBarIndexer m.ts n ∧
      (tickBarIndexer m'.ts n).map (fun i => m'.ts[i]?) = (tickBarIndexer m.ts n).map (fun i => m.ts[i]?) := by
  intro m m'
  have e : m'.ts = m.ts := h.ts_eq
  rw [e]
  exact ⟨rfl, rfl⟩

/-- **C159 (other bar types differ).** Volume bars (threshold 5) close at different trades, and tick bars of two contain
different trades: the first tick bar trades 1 or 4 units. -/
theorem C159_other_bars_differ :
    let m := mergedTable tieDemo
    let m' := mergedTable tieDemo'
    volumeBarIndexer m.amounts 5 = [0, 2] ∧ volumeBarIndexer m'.amounts 5 = [0, 1] ∧
    tickBarIndexer m.ts 2 = [0, 1, 3] ∧
    (ohlcvBar m.prices m.amounts 0 1).volume = 1 ∧ (ohlcvBar m'.prices m'.amounts 0 1).volume = 4 := by decide +kernel

/-- **C159 (equal ids).** With equal ids the outcome of the unstable sort matters: of the two rows with id 2 the one
placed first is kept. -/
theorem C159_equal_ids_differ :
    let a : TradeRow ℚ := ⟨5, 20, 1, 2⟩
    let b : TradeRow ℚ := ⟨5, 21, 3, 2⟩
    (sortTrades (fun r => r) [a, b]).map (·.price) = [20] ∧ (sortTrades (fun r => r) [b, a]).map (·.price) = [21] := by
  decide +kernel

example : TieReorder tieDemo tieDemo' ∧ tieDemo ≠ tieDemo' := ⟨tieDemo_reorder, by decide +kernel⟩

end FinML
