/-
C107 (buyers and sellers are treated alike): exchanging the two sides of the market, in `finmlkit/bar/base.py`,
`finmlkit/bar/utils.py`, `finmlkit/bar/logic.py`, `finmlkit/sampling/filters.py` and `finmlkit/label/tbm.py`.
-/
import Verif.Props.UnitsBars
import Verif.Model.Trades
import Mathlib.Algebra.Order.Group.MinMax

set_option linter.unusedSectionVars false

namespace FinML

variable {K : Type} [Field K] [LinearOrder K] [IsStrictOrderedRing K]

/-! ## Specification -/

/-- The other side of the market. -/
def otherSides (sides : List Int) : List Int := sides.map (fun s => -s)

/-- A row of directional features with buyers and sellers exchanged. -/
def DirBar.swap (b : DirBar K) : DirBar K where
  ticksBuy := b.ticksSell
  ticksSell := b.ticksBuy
  volBuy := b.volSell
  volSell := b.volBuy
  dolBuy := b.dolSell
  dolSell := b.dolBuy
  meanSpread := b.meanSpread
  maxSpread := b.maxSpread
  cumTicksMin := -b.cumTicksMax
  cumTicksMax := -b.cumTicksMin
  cumVolMin := -b.cumVolMax
  cumVolMax := -b.cumVolMin
  cumDolMin := -b.cumDolMax
  cumDolMax := -b.cumDolMin

/-- Level arrays with buyers and sellers exchanged. -/
def Levels.swap (l : Levels K) : Levels K := ⟨l.sellVol, l.buyVol, l.sellTicks, l.buyTicks⟩

/-! ## Directional features -/

/-- The running state with buyers and sellers exchanged. -/
def DirAcc.swap (b : DirAcc K) : DirAcc K where
  ticksBuy := b.ticksSell
  ticksSell := b.ticksBuy
  volBuy := b.volSell
  volSell := b.volBuy
  dolBuy := b.dolSell
  dolSell := b.dolBuy
  cumTicks := -b.cumTicks
  cumVol := -b.cumVol
  cumDol := -b.cumDol
  maxSpread := b.maxSpread
  cumSpread := b.cumSpread
  prevSign := -b.prevSign
  cumTicksMin := -b.cumTicksMax
  cumTicksMax := -b.cumTicksMin
  cumVolMin := -b.cumVolMax
  cumVolMax := -b.cumVolMin
  cumDolMin := -b.cumDolMax
  cumDolMax := -b.cumDolMin

theorem dirExtremes_swap (s : DirAcc K) : dirExtremes s.swap = (dirExtremes s).swap := by
  simp only [dirExtremes, DirAcc.swap, max_neg_neg, min_neg_neg]

theorem dirSpread_swap (s : DirAcc K) (t : DirTick K) : dirSpread s.swap { t with side := -t.side } = (dirSpread s t).swap := by
  unfold dirSpread
  by_cases h : t.side = s.prevSign
  · have h' : ¬ (-t.side ≠ s.swap.prevSign) := by simp [DirAcc.swap, h]
    rw [if_neg h', if_neg (not_not.mpr h)]
    rfl
  · have h' : -t.side ≠ s.swap.prevSign := by simp [DirAcc.swap, h]
    rw [if_pos h', if_pos h]
    rfl

theorem dirStep_swap (s : DirAcc K) (t : DirTick K) : dirStep s.swap { t with side := -t.side } = (dirStep s t).swap := by
  unfold dirStep
  simp only [dirSpread_swap]
  generalize dirSpread s t = z
  by_cases h1 : t.side = 1
  · rw [if_neg (by omega), if_pos (by omega), if_pos h1, ← dirExtremes_swap]
    congr 1
    simp only [DirAcc.swap, DirAcc.mk.injEq, true_and, and_true]
    exact ⟨by ring, by ring, by ring⟩
  · by_cases h2 : t.side = -1
    · rw [if_pos (by omega), if_neg h1, if_pos h2, ← dirExtremes_swap]
      congr 1
      simp only [DirAcc.swap, DirAcc.mk.injEq, true_and, and_true]
      exact ⟨by ring, by ring, by ring⟩
    · rw [if_neg (by omega), if_neg (by omega), if_neg h1, if_neg h2]

theorem pyGet_flip (sides : List Int) (i : Int) : pyGet (otherSides sides) 0 i = -pyGet sides 0 i := by
  unfold pyGet
  have hg : ∀ k : Nat, (otherSides sides).getD k 0 = -sides.getD k 0 := by
    intro k
    simp only [otherSides, List.getD_eq_getElem?_getD, List.getElem?_map]
    cases sides[k]? <;> simp
  have hl : (otherSides sides).length = sides.length := by simp [otherSides]
  rw [hl]
  split <;> rw [hg]

/-- **C107 (directional features).** If every trade changes its side, the buy columns and the sell columns of every bar are
exchanged, the extremes of the cumulative flows are reflected (each minimum is the negative of the former maximum), and the
spread columns do not change. -/
theorem C107_directional (prices volumes : List K) (sides closes : List Int) :
    compBarDirectional prices volumes (otherSides sides) closes =
      (compBarDirectional prices volumes sides closes).map DirBar.swap := by
  unfold compBarDirectional
  rw [List.map_map]
  apply List.map_congr_left
  rintro ⟨a, b⟩ _
  simp only [Function.comp]
  unfold dirBar
  simp only [pyGet_flip]
  have hfold : ∀ (l : List (DirTick K)) (s : DirAcc K),
      (l.map (fun t => { t with side := -t.side })).foldl dirStep s.swap = (l.foldl dirStep s).swap := by
    intro l
    induction l with
    | nil => intro s; rfl
    | cons t l ih =>
      intro s
      rw [List.map_cons, List.foldl_cons, List.foldl_cons, dirStep_swap, ih]
  have e1 : (idxRange (a + 1) b).map (fun j =>
      ({ side := -pyGet sides 0 j, price := pyGet prices 0 j, prevPrice := pyGet prices 0 (j - 1), vol := pyGet volumes 0 j } : DirTick K)) =
      ((idxRange (a + 1) b).map (fun j =>
        ({ side := pyGet sides 0 j, price := pyGet prices 0 j, prevPrice := pyGet prices 0 (j - 1), vol := pyGet volumes 0 j } : DirTick K))).map
        (fun t => { t with side := -t.side }) := by rw [List.map_map]; rfl
  have e2 : ∀ p : Int, (dirInit (-p) : DirAcc K) = (dirInit p).swap := by
    intro p
    simp [dirInit, DirAcc.swap]
  have e3 : (if b > a + 1 then -pyGet sides 0 (a + 1 - 1) else 0) = -(if b > a + 1 then pyGet sides 0 (a + 1 - 1) else 0) := by
    split <;> simp
  rw [e1, e3, e2, hfold]
  generalize ((idxRange (a + 1) b).map (fun j =>
        ({ side := pyGet sides 0 j, price := pyGet prices 0 j, prevPrice := pyGet prices 0 (j - 1), vol := pyGet volumes 0 j } : DirTick K))).foldl
          dirStep (dirInit (if b > a + 1 then pyGet sides 0 (a + 1 - 1) else 0)) = z
  simp only [DirBar.swap, DirAcc.swap, add_comm z.ticksSell z.ticksBuy]

example : compBarDirectional [10, 11, (12 : ℚ)] [1, 2, 3] [1, 1, -1] [-1, 2] =
      [⟨2, 1, 3, 3, 32, 36, some 1, 2, 1, 2, 0, 3, -4, 32⟩] ∧
    compBarDirectional [10, 11, (12 : ℚ)] [1, 2, 3] (otherSides [1, 1, -1]) [-1, 2] =
      [⟨1, 2, 3, 3, 36, 32, some 1, 2, -2, -1, -3, 0, -32, 4⟩] := by decide +kernel

/-! ## Footprints -/

theorem levelLoop_swap (rnd : K → Int) (low : Int) (n : Nat) (ts : List (K × K × Int)) (st : Levels K) :
    levelLoop rnd low n st.swap (ts.map (fun t => (t.1, t.2.1, -t.2.2))) = (levelLoop rnd low n st ts).map Levels.swap := by
  induction ts generalizing st with
  | nil => rfl
  | cons t ts ih =>
    have hstep : levelStep rnd low n st.swap (t.1, t.2.1, -t.2.2) = (levelStep rnd low n st t).map Levels.swap := by
      unfold levelStep
      simp only
      by_cases h0 : 0 ≤ rnd t.1 - low ∧ rnd t.1 - low < n
      · rw [if_pos h0, if_pos h0]
        by_cases h1 : t.2.2 = 1
        · rw [if_neg (by omega), if_pos (by omega), if_pos h1]; rfl
        · by_cases h2 : t.2.2 = -1
          · rw [if_pos (by omega), if_neg h1, if_pos h2]; rfl
          · rw [if_neg (by omega), if_neg (by omega), if_neg h1, if_neg h2]; rfl
      · rw [if_neg h0, if_neg h0]; rfl
    rw [List.map_cons]
    simp only [levelLoop, hstep]
    cases levelStep rnd low n st t with
    | error e => rfl
    | ok st' => exact ih st'

/-- **C107 (footprint levels).** If every trade changes its side, the buy and the sell arrays of every price level are
exchanged, and the point of highest volume, the profile skew and its Gini index do not change. -/
theorem C107_footprint_levels (rnd : K → Int) (m lo hi : K) (ts : List (K × K × Int)) (f : Footprint K)
    (h : footprintBar rnd m lo hi ts = .ok f) :
    ∃ g, footprintBar rnd m lo hi (ts.map (fun t => (t.1, t.2.1, -t.2.2))) = .ok g ∧ g.priceLevels = f.priceLevels ∧
      g.lv = f.lv.swap ∧ g.stats.cot = f.stats.cot ∧ g.stats.vpSkew = f.stats.vpSkew ∧ g.stats.vpGini = f.stats.vpGini := by
  unfold footprintBar at h ⊢
  simp only at h ⊢
  have hz : (Levels.zero (K := K) (rnd hi - rnd lo + 1).toNat).swap = Levels.zero (rnd hi - rnd lo + 1).toNat := rfl
  rw [← hz, levelLoop_swap]
  cases hl : levelLoop rnd (rnd lo) (rnd hi - rnd lo + 1).toNat (Levels.zero (rnd hi - rnd lo + 1).toNat) ts with
  | error e => rw [hl] at h; cases h
  | ok lv =>
    rw [hl] at h
    simp only [Except.ok.injEq] at h
    subst h
    have hc : List.zipWith (· + ·) lv.sellVol lv.buyVol = List.zipWith (· + ·) lv.buyVol lv.sellVol := by
      rw [List.zipWith_comm]
      congr 1
      funext a b
      ring
    refine ⟨_, rfl, rfl, rfl, ?_, ?_, ?_⟩ <;> simp only [footprintFeatures, Levels.swap, hc]

example : (footprintBar (fun x : ℚ => x.num) 2 1 2 [(1, 5, 1), (2, 1, -1)]).toOption.map (·.lv) =
    some ⟨[5, 0], [0, 1], [1, 0], [0, 1]⟩ := by decide +kernel

/-- **C107 (imbalances).** On the mirrored market (sides exchanged and price levels in the opposite order) the buy
imbalances are the sell imbalances in the opposite order, and conversely. -/
theorem C107_imbalances (buy sell : List K) (m : K) (hlen : buy.length = sell.length) :
    buyImbalances sell.reverse buy.reverse m = (sellImbalances buy sell m).reverse ∧
    sellImbalances sell.reverse buy.reverse m = (buyImbalances buy sell m).reverse := by
  have hz : ∀ {α β γ : Type} (g : α → β → γ) (a : List α) (b : List β), a.length = b.length →
      List.zipWith g a.reverse b.reverse = (List.zipWith g a b).reverse := by
    intro α β γ g a b hab
    exact (List.reverse_zipWith hab).symm
  unfold buyImbalances sellImbalances
  rw [List.length_reverse]
  by_cases h : buy.length > 1
  · rw [if_pos (hlen ▸ h), if_pos h, if_pos (hlen ▸ h), if_pos h]
    constructor
    · rw [List.reverse_append, List.reverse_singleton, List.singleton_append, List.tail_reverse, List.dropLast_reverse,
        hz _ _ _ (by simp [hlen])]
    · rw [List.reverse_cons, List.tail_reverse, List.dropLast_reverse, hz _ _ _ (by simp [hlen])]
  · rw [if_neg (hlen ▸ h), if_neg h, if_neg (hlen ▸ h), if_neg h]
    simp [hlen]

example : buyImbalances [(1 : ℚ), 5] [1, 1] 2 = [false, true] ∧ sellImbalances [(1 : ℚ), 1] [5, 1] 2 = [true, false] := by
  decide +kernel

/-- C107 fails for the signed run: a level that carries both flags counts as a buy, and of two runs of equal length the
lower one wins, so the mirrored market can have a run of the same sign. -/
theorem C107_run_prefers_buyers :
    let buy : List ℚ := [0, 9, 0]
    let sell : List ℚ := [0, 9, 0]
    buyImbalances buy sell 2 = [false, true, false] ∧ sellImbalances buy sell 2 = [false, true, false] ∧
    (footprintFeatures [1, 2, 3] buy sell 2).maxRunSigned = 1 ∧
    (footprintFeatures [1, 2, 3] sell.reverse buy.reverse 2).maxRunSigned = 1 := by
  decide +kernel

/-! ## Tick rule -/

/-- **C107 (tick rule).** Reflecting the prices at any level exchanges the inferred sides of all trades. -/
theorem C107_tick_rule (eps c : K) (ps : List K) :
    tradeSideVector eps (ps.map (fun p => c - p)) = otherSides (tradeSideVector eps ps) := by
  have hsign : ∀ x : K, signK (-x) = -signK x := by
    intro x
    unfold signK
    rcases lt_trichotomy x 0 with h | h | h
    · rw [if_pos (by linarith), if_neg (by linarith), if_pos h]; rfl
    · subst h; simp
    · rw [if_neg (by linarith), if_pos (by linarith), if_pos h]
  have hside : ∀ p q : K, ∀ s : Int, tradeSide eps (c - p) (c - q) (-s) = -tradeSide eps p q s := by
    intro p q s
    unfold tradeSide
    simp only
    have : c - p - (c - q) = -(p - q) := by ring
    rw [this, abs_neg, hsign]
    split <;> rfl
  have hloop : ∀ (l : List K) (q : K) (s : Int),
      tradeSideLoop eps (c - q) (-s) (l.map (fun p => c - p)) = (tradeSideLoop eps q s l).map (fun s => -s) := by
    intro l
    induction l with
    | nil => intro q s; rfl
    | cons p l ih =>
      intro q s
      rw [List.map_cons]
      simp only [tradeSideLoop, hside, ih, List.map_cons]
  cases ps with
  | nil => rfl
  | cons p ps =>
    have := hloop ps p 0
    rw [neg_zero] at this
    simp only [List.map_cons, tradeSideVector, otherSides, this, neg_zero]

example : tradeSideVector (1 / 1000 : ℚ) [5, 6, 6, 4] = [0, 1, 1, -1] := by decide +kernel

/-! ## CUSUM -/

/-- **C107 (CUSUM filter).** If the threshold never decreases, the filter fires at the same bars when every return changes
its sign (prices replaced by their inverses). -/
theorem C107_cusum_filter (l : List (K × K)) (hmono : (l.map (·.2)).Pairwise (· ≤ ·)) (hpos : ∀ x ∈ l, 0 ≤ x.2) (i : Nat) :
    cusumFilterLoop i 0 0 (l.map (fun x => (-x.1, x.2))) = cusumFilterLoop i 0 0 l := by
  have key : ∀ (l : List (K × K)) (i : Nat) (sp sn : K), (l.map (·.2)).Pairwise (· ≤ ·) → (∀ x ∈ l, 0 ≤ x.2) →
      (∀ x ∈ l, sp ≤ x.2) → (∀ x ∈ l, -x.2 ≤ sn) →
      cusumFilterLoop i (-sn) (-sp) (l.map (fun x => (-x.1, x.2))) = cusumFilterLoop i sp sn l := by
    intro l
    induction l with
    | nil => intros; rfl
    | cons x l ih =>
      intro i sp sn hm h0 h1 h2
      rw [List.map_cons, List.pairwise_cons] at hm
      have hm1 : ∀ y ∈ l, x.2 ≤ y.2 := fun y hy => hm.1 y.2 (List.mem_map_of_mem hy)
      have hx0 := h0 x (by simp)
      have hx1 := h1 x (by simp)
      have hx2 := h2 x (by simp)
      have h0' : ∀ y ∈ l, 0 ≤ y.2 := fun y hy => h0 y (by simp [hy])
      have e1 : max 0 (-sn + -x.1) = -min 0 (sn + x.1) := by
        rw [← neg_add, ← max_neg_neg, neg_zero]
      have e2 : min 0 (-sp + -x.1) = -max 0 (sp + x.1) := by
        rw [← neg_add, ← min_neg_neg, neg_zero]
      rw [List.map_cons]
      simp only [cusumFilterLoop, e1, e2]
      by_cases hn : min 0 (sn + x.1) < -x.2
      · have hx : x.1 < 0 := by
          rcases le_total 0 (sn + x.1) with h | h
          · rw [min_eq_left h] at hn; linarith
          · rw [min_eq_right h] at hn; linarith
        have hp : ¬ (max 0 (sp + x.1) > x.2) := by
          rw [not_lt, max_le_iff]; exact ⟨hx0, by linarith⟩
        rw [if_pos hn, if_neg (by rw [neg_lt_neg_iff]; exact hp), if_pos (by rw [gt_iff_lt, lt_neg]; exact hn)]
        have hih := ih (i + 1) (max 0 (sp + x.1)) 0 hm.2 h0'
          (fun y hy => le_trans (not_lt.mp hp) (hm1 y hy)) (fun y hy => by have := h0' y hy; linarith)
        rw [neg_zero] at hih
        rw [hih]
      · by_cases hp : max 0 (sp + x.1) > x.2
        · rw [if_neg hn, if_pos hp, if_pos (by rw [neg_lt_neg_iff]; exact hp)]
          have hih := ih (i + 1) 0 (min 0 (sn + x.1)) hm.2 h0' h0'
            (fun y hy => le_trans (neg_le_neg (hm1 y hy)) (not_lt.mp hn))
          rw [neg_zero] at hih
          rw [hih]
        · rw [if_neg hn, if_neg hp, if_neg (by rw [neg_lt_neg_iff]; exact hp), if_neg (by rw [gt_iff_lt, lt_neg]; exact hn)]
          exact ih (i + 1) _ _ hm.2 h0' (fun y hy => le_trans (not_lt.mp hp) (hm1 y hy))
            (fun y hy => le_trans (neg_le_neg (hm1 y hy)) (not_lt.mp hn))
  have := key l i 0 0 hmono hpos (fun x hx => hpos x hx) (fun x hx => by have := hpos x hx; linarith)
  rwa [neg_zero] at this

example : cusumFilterLoop 1 0 0 [(3, 2), (-5, 2), (1, (4 : ℚ))] = [1, 2] ∧
    cusumFilterLoop 1 0 0 [(-3, 2), (5, 2), (-1, (4 : ℚ))] = [1, 2] := by decide +kernel

/-- C107 fails when a threshold drops (for example a volatility estimate): both sums can then be beyond it at the same bar,
only the negative one is reset, and later events depend on the direction. -/
theorem C107_cusum_prefers_falls :
    cusumFilterLoop 1 0 0 [(10, 100), (-5, 1), (3, (7 : ℚ))] = [2, 3] ∧
    cusumFilterLoop 1 0 0 [(-10, 100), (5, 1), (-3, (7 : ℚ))] = [2] := by decide +kernel

/-- **C107 (CUSUM bars).** Outside blocks of equal timestamps and with a threshold that is positive and never decreases, the
bars close at the same trades when every return changes its sign. -/
theorem C107_cusum_bars (l : List (CusumTick K)) (hb : ∀ t ∈ l, t.inBlock = false)
    (hmono : (l.map (·.lam)).Pairwise (· ≤ ·)) (hpos : ∀ t ∈ l, 0 < t.lam) (i : Nat) :
    cusumBarLoop i 0 0 (l.map (fun t => { t with ret := -t.ret })) = cusumBarLoop i 0 0 l := by
  have key : ∀ (l : List (CusumTick K)) (i : Nat) (sp sn : K), (∀ t ∈ l, t.inBlock = false) →
      (l.map (·.lam)).Pairwise (· ≤ ·) → (∀ x ∈ l, 0 < x.lam) → (∀ x ∈ l, sp < x.lam) → (∀ x ∈ l, -x.lam < sn) →
      cusumBarLoop i (-sn) (-sp) (l.map (fun t => { t with ret := -t.ret })) = cusumBarLoop i sp sn l := by
    intro l
    induction l with
    | nil => intros; rfl
    | cons x l ih =>
      intro i sp sn hb hm h0 h1 h2
      rw [List.map_cons, List.pairwise_cons] at hm
      have hm1 : ∀ y ∈ l, x.lam ≤ y.lam := fun y hy => hm.1 y.lam (List.mem_map_of_mem hy)
      have hx0 := h0 x (by simp)
      have hx1 := h1 x (by simp)
      have hx2 := h2 x (by simp)
      have hbx := hb x (by simp)
      have hb' : ∀ y ∈ l, y.inBlock = false := fun y hy => hb y (by simp [hy])
      have h0' : ∀ y ∈ l, 0 < y.lam := fun y hy => h0 y (by simp [hy])
      have e1 : max 0 (-sn + -x.ret) = -min 0 (sn + x.ret) := by
        rw [← neg_add, ← max_neg_neg, neg_zero]
      have e2 : min 0 (-sp + -x.ret) = -max 0 (sp + x.ret) := by
        rw [← neg_add, ← min_neg_neg, neg_zero]
      rw [List.map_cons]
      simp only [cusumBarLoop, e1, e2, hbx, Bool.false_eq_true, if_false]
      by_cases hn : min 0 (sn + x.ret) ≤ -x.lam
      · have hx : x.ret < 0 := by
          rcases le_total 0 (sn + x.ret) with h | h
          · rw [min_eq_left h] at hn; linarith
          · rw [min_eq_right h] at hn; linarith
        have hp : ¬ (max 0 (sp + x.ret) ≥ x.lam) := by
          rw [not_le, max_lt_iff]; exact ⟨hx0, by linarith⟩
        rw [if_pos (by rw [ge_iff_le, le_neg]; exact hn), if_neg hp, if_pos hn]
        have hih := ih (i + 1) (max 0 (sp + x.ret)) 0 hb' hm.2 h0'
          (fun y hy => lt_of_lt_of_le (not_le.mp hp) (hm1 y hy)) (fun y hy => by have := h0' y hy; linarith)
        rw [neg_zero] at hih
        rw [hih]
      · by_cases hp : max 0 (sp + x.ret) ≥ x.lam
        · rw [if_neg (by rw [ge_iff_le, le_neg]; exact hn), if_pos (by rw [neg_le_neg_iff]; exact hp), if_pos hp]
          have hih := ih (i + 1) 0 (min 0 (sn + x.ret)) hb' hm.2 h0' h0'
            (fun y hy => lt_of_le_of_lt (neg_le_neg (hm1 y hy)) (not_le.mp hn))
          rw [neg_zero] at hih
          rw [hih]
        · rw [if_neg (by rw [ge_iff_le, le_neg]; exact hn), if_neg (by rw [neg_le_neg_iff]; exact hp), if_neg hp, if_neg hn]
          exact ih (i + 1) _ _ hb' hm.2 h0' (fun y hy => lt_of_lt_of_le (not_le.mp hp) (hm1 y hy))
            (fun y hy => lt_of_le_of_lt (neg_le_neg (hm1 y hy)) (not_le.mp hn))
  have := key l i 0 0 hb hmono hpos hpos (fun x hx => by have := hpos x hx; linarith)
  rwa [neg_zero] at this

example : let l : List (CusumTick ℚ) := [⟨1, false, 2⟩, ⟨2, false, 2⟩, ⟨-3, false, 3⟩]
    (∀ t ∈ l, t.inBlock = false) ∧ (l.map (·.lam)).Pairwise (· ≤ ·) ∧ (∀ t ∈ l, 0 < t.lam) := by decide +kernel

/-- C107 fails inside a block of equal timestamps, with a constant threshold: the rise to 10 and the fall to 5 happen while
the bar cannot close, both sums are then beyond the threshold, and only the positive one is reset. -/
theorem C107_cusum_bars_prefer_rises :
    cusumBarLoop 1 0 0 [⟨10, true, 4⟩, ⟨-5, false, 4⟩, ⟨3, false, (4 : ℚ)⟩] = [2] ∧
    cusumBarLoop 1 0 0 [⟨-10, true, 4⟩, ⟨5, false, 4⟩, ⟨-3, false, (4 : ℚ)⟩] = [2, 3] := by decide +kernel

/-! ## Triple barrier -/

/-- **C107 (meta labels).** A short position on the inverse prices is the long position on the prices: touch, return, label
and weight of an event do not change. -/
theorem C107_short_of_inverse (p : TbmParams K) (ts : List Int) (logc : List K) (isMeta : Bool) (i0 : Nat) (tgt : K) (side : Int) :
    tbmEvent p ts (scl (-1) logc) isMeta i0 tgt (-side) = tbmEvent p ts logc isMeta i0 tgt side := by
  have hl : ∀ (ub lb : Ext K) (t0 : Int) (js : List Nat) (a : TbmAcc K),
      tbmLoop ts (scl (-1) logc) t0 p.minClose ((-side : Int) : K) ((scl (-1) logc).getD i0 0) ub lb js a =
        tbmLoop ts logc t0 p.minClose (side : K) (logc.getD i0 0) ub lb js a := by
    intro ub lb t0 js
    induction js with
    | nil => intro a; rfl
    | cons j js ih =>
      intro a
      have hr : ((scl (-1) logc).getD j 0 - (scl (-1) logc).getD i0 0) * ((-side : Int) : K) =
          (logc.getD j 0 - logc.getD i0 0) * (side : K) := by
        rw [scl_getD, scl_getD, Int.cast_neg]; ring
      simp only [tbmLoop, hr, ih]
  unfold tbmEvent
  simp only [hl]

example : tbmEvent (⟨.fin 1, .fin 1, some 100, 0, 0⟩ : TbmParams ℚ) [0, 10, 20, 200] (scl (-1) [0, 1, 5, 9]) true 0 2 (-1) =
    ⟨1, some 2, some 5, some 1⟩ := by decide +kernel

/-- The state of the path loop with the two barriers exchanged. -/
def TbmAcc.swap (a : TbmAcc K) : TbmAcc K := ⟨a.touch, -a.ret, a.maxL, a.maxU⟩

/-- The negative of an extended number. -/
def Ext.opp : Ext K → Ext K
  | .fin x => .fin (-x)
  | .pinf => .ninf
  | .ninf => .pinf
  | .nan => .nan

theorem leFin_neg (b : Ext K) (r : K) : b.opp.leFin (-r) = b.geFin r := by
  cases b <;> simp [Ext.opp, Ext.leFin, Ext.geFin]

theorem geFin_neg (b : Ext K) (r : K) : b.opp.geFin (-r) = b.leFin r := by
  cases b <;> simp [Ext.opp, Ext.leFin, Ext.geFin]

theorem valid_neg (b : Ext K) : b.opp.valid = b.valid.map (fun x => -x) := by
  cases b with
  | fin x => by_cases h : x = 0 <;> simp [Ext.opp, Ext.valid, h]
  | _ => rfl

theorem scale_neg (b : Ext K) (t : K) : b.scale t = (b.scale (-t)).opp := by
  cases b with
  | fin x => simp [Ext.scale, Ext.opp]
  | nan => rfl
  | pinf =>
    rcases lt_trichotomy t 0 with h | h | h
    · simp [Ext.scale, Ext.opp, h, not_lt.mpr h.le]
    · simp [Ext.scale, Ext.opp, h]
    · simp [Ext.scale, Ext.opp, h, not_lt.mpr h.le]
  | ninf =>
    rcases lt_trichotomy t 0 with h | h | h
    · simp [Ext.scale, Ext.opp, h, not_lt.mpr h.le]
    · simp [Ext.scale, Ext.opp, h]
    · simp [Ext.scale, Ext.opp, h, not_lt.mpr h.le]

theorem tbmProgress_swap (ub lb : Ext K) (r : K) (a : TbmAcc K) :
    tbmProgress lb.opp ub.opp (-r) a.swap = (tbmProgress ub lb r a).swap := by
  unfold tbmProgress
  rw [valid_neg, valid_neg]
  rcases lt_trichotomy r 0 with h | h | h
  · have h1 : decide (-r > 0) = true := by simpa using h
    have h2 : decide (r > 0) = false := by simpa using h.le
    have h3 : decide (r < 0) = true := by simpa using h
    have h4 : decide (-r < 0) = false := by simpa using h.le
    rw [h1, h2, h3, h4]
    cases lb.valid with
    | none => cases ub.valid <;> rfl
    | some l => cases ub.valid <;> simp [TbmAcc.swap, neg_div_neg_eq]
  · subst h
    simp only [neg_zero, gt_iff_lt, lt_self_iff_false, decide_false]
  · have h1 : decide (-r > 0) = false := by simpa using h.le
    have h2 : decide (r > 0) = true := by simpa using h
    have h3 : decide (r < 0) = false := by simpa using h.le
    have h4 : decide (-r < 0) = true := by simpa using h
    rw [h1, h2, h3, h4]
    cases ub.valid with
    | none => cases lb.valid <;> rfl
    | some l => cases lb.valid <;> simp [TbmAcc.swap, neg_div_neg_eq]

theorem tbmLoop_swap (ts : List Int) (logc : List K) (t0 mc : Int) (side : K) (i0 : Nat) (ub lb : Ext K) (js : List Nat)
    (a : TbmAcc K) :
    tbmLoop ts (scl (-1) logc) t0 mc side ((scl (-1) logc).getD i0 0) lb.opp ub.opp js a.swap =
      (tbmLoop ts logc t0 mc side (logc.getD i0 0) ub lb js a).swap := by
  induction js generalizing a with
  | nil => rfl
  | cons j js ih =>
    have hr : ((scl (-1) logc).getD j 0 - (scl (-1) logc).getD i0 0) * side = -((logc.getD j 0 - logc.getD i0 0) * side) := by
      rw [scl_getD, scl_getD]; ring
    simp only [tbmLoop, hr, leFin_neg, geFin_neg]
    have hs : ({ a.swap with ret := -((logc.getD j 0 - logc.getD i0 0) * side) } : TbmAcc K) =
        ({ a with ret := (logc.getD j 0 - logc.getD i0 0) * side } : TbmAcc K).swap := rfl
    rw [hs, tbmProgress_swap, ih, ih]
    split
    · rfl
    · rw [Bool.or_comm]
      split
      · rfl
      · rfl

/-- **C107 (side labels).** On the inverse prices and with the two multipliers exchanged, every event ends at the same bar
with the opposite return and the same weight, and its label is the opposite one, unless the return is exactly zero. -/
theorem C107_mirrored_labels (p : TbmParams K) (ts : List Int) (logc : List K) (i0 : Nat) (tgt : K) (side : Int) (r : K)
    (hr : (tbmEvent p ts logc false i0 tgt side).ret = some r) (hne : r ≠ 0) :
    tbmEvent { p with bottom := p.top, top := p.bottom } ts (scl (-1) logc) false i0 tgt side =
      { tbmEvent p ts logc false i0 tgt side with
        label := -(tbmEvent p ts logc false i0 tgt side).label
        ret := some (-r) } := by
  unfold tbmEvent at hr ⊢
  simp only at hr ⊢
  by_cases h : verticalIdx ts (ts.getD i0 0) p.vertical ≤ (i0 : Int)
  · rw [if_pos h] at hr; cases hr
  · rw [if_neg h] at hr
    rw [if_neg h, if_neg h]
    have hu : p.bottom.scale tgt = (p.bottom.scale (-tgt)).opp := scale_neg _ _
    have hl : p.top.scale (-tgt) = (p.top.scale tgt).opp := by rw [scale_neg p.top (-tgt), neg_neg]
    have h0 : (⟨none, 0, 0, 0⟩ : TbmAcc K) = (⟨none, 0, 0, 0⟩ : TbmAcc K).swap := by simp [TbmAcc.swap]
    have hloop := tbmLoop_swap ts logc (ts.getD i0 0) p.minClose (side : K) i0 (p.top.scale tgt) (p.bottom.scale (-tgt))
      (List.range' (i0 + 1) ((verticalIdx ts (ts.getD i0 0) p.vertical).toNat - i0)) ⟨none, 0, 0, 0⟩
    rw [← h0] at hloop
    rw [hu, hl, hloop]
    generalize tbmLoop ts logc (ts.getD i0 0) p.minClose (side : K) (logc.getD i0 0) (p.top.scale tgt) (p.bottom.scale (-tgt))
      (List.range' (i0 + 1) ((verticalIdx ts (ts.getD i0 0) p.vertical).toNat - i0)) ⟨none, 0, 0, 0⟩ = a at hr ⊢
    simp only [Option.some.injEq] at hr
    have hret : a.swap.ret = -a.ret := rfl
    have htouch : a.swap.touch = a.touch := rfl
    have hU : a.swap.maxU = a.maxL := rfl
    have hL : a.swap.maxL = a.maxU := rfl
    simp only [hret, htouch, hr]
    have hlab : tbmLabel false p.minRet (-r) = -tbmLabel false p.minRet r := by
      unfold tbmLabel
      rcases lt_or_gt_of_ne hne with h1 | h1
      · simp [h1, not_lt.mpr h1.le]
      · simp [h1, not_lt.mpr h1.le]
    rw [hlab]
    congr 1
    unfold tbmRatio
    split
    · rw [hret, hr, hU, hL, valid_neg, valid_neg]
      rcases lt_or_gt_of_ne hne with h1 | h1
      · rw [if_pos (show -r > 0 by linarith), if_neg (show ¬ r > 0 by linarith)]
        simp
      · rw [if_neg (show ¬ -r > 0 by linarith), if_pos h1]
        simp
    · rfl

example : tbmEvent (⟨.fin 1, .fin 1, some 100, 0, 0⟩ : TbmParams ℚ) [0, 10, 20, 200] (scl (-1) [0, 1, 5, 9]) false 0 2 1 =
    ⟨-1, some 2, some (-5), some 1⟩ := by decide +kernel

/-- C107 fails for a return of exactly zero: a flat price is labelled 1, and so is its mirror image. -/
theorem C107_flat_is_up :
    (tbmEvent (⟨.fin 1, .fin 1, some 100, 0, 0⟩ : TbmParams ℚ) [0, 10, 20, 200] [3, 3, 3, 3] false 0 2 1).label = 1 ∧
    (tbmEvent (⟨.fin 1, .fin 1, some 100, 0, 0⟩ : TbmParams ℚ) [0, 10, 20, 200] (scl (-1) [3, 3, 3, 3]) false 0 2 1).label = 1 := by
  decide +kernel

end FinML
