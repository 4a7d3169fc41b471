/-
C103 (indicators and the unit of prices and volumes).  `finmlkit/feature/core/*.py`.
-/
import Verif.Model.Indicators
import Mathlib.Analysis.Real.Sqrt
import Mathlib.Tactic.Ring
import Mathlib.Tactic.FieldSimp
import Mathlib.Tactic.Linarith
import Mathlib.Algebra.Order.Ring.Abs
import Mathlib.Algebra.Order.Field.Basic

set_option linter.unusedSectionVars false

namespace FinML

variable {K : Type} [Field K] [LinearOrder K] [IsStrictOrderedRing K]

/-! ## Specification -/

/-- A series in another unit. -/
def scl (c : K) (xs : List K) : List K := xs.map (fun x => c * x)

/-- A series with missing values in another unit. -/
def sclO (c : K) (xs : List (Option K)) : List (Option K) := xs.map (Option.map (fun x => c * x))

/-- What is used of the square root: it is homogeneous. -/
def SqrtHom (sqrt : K → K) : Prop := ∀ a x : K, 0 ≤ a → 0 ≤ x → sqrt (a * a * x) = a * sqrt x

/-! ## Lemmas -/

theorem scl_length (c : K) (xs : List K) : (scl c xs).length = xs.length := by simp [scl]

theorem sclO_length (c : K) (xs : List (Option K)) : (sclO c xs).length = xs.length := by simp [sclO]

theorem scl_getD (c : K) (xs : List K) (i : Nat) : (scl c xs).getD i 0 = c * xs.getD i 0 := by
  rw [scl, List.getD_eq_getElem?_getD, List.getD_eq_getElem?_getD, List.getElem?_map]
  cases xs[i]? <;> simp

theorem sclO_getD (c : K) (xs : List (Option K)) (i : Nat) :
    (sclO c xs).getD i none = (xs.getD i none).map (fun x => c * x) := by
  rw [sclO, List.getD_eq_getElem?_getD, List.getD_eq_getElem?_getD, List.getElem?_map]
  cases xs[i]? <;> simp

theorem scl_sum (c : K) (xs : List K) : (scl c xs).sum = c * xs.sum := by
  induction xs with
  | nil => simp [scl]
  | cons x xs ih =>
    rw [show scl c (x :: xs) = c * x :: scl c xs from rfl, List.sum_cons, List.sum_cons, ih]; ring

theorem window_scl (c : K) (xs : List K) (w i : Nat) : window (scl c xs) w i = scl c (window xs w i) := by
  simp [window, scl]

theorem window_sclO (c : K) (xs : List (Option K)) (w i : Nat) : window (sclO c xs) w i = sclO c (window xs w i) := by
  simp [window, sclO]

theorem scl_getLastD (c : K) (xs : List K) : (scl c xs).getLastD 0 = c * xs.getLastD 0 := by
  rw [List.getLastD_eq_getLast?, List.getLastD_eq_getLast?, scl, List.getLast?_map]
  cases xs.getLast? <;> simp

theorem scl_headD (c : K) (xs : List K) : (scl c xs).headD 0 = c * xs.headD 0 := by
  cases xs <;> simp [scl]

theorem tabulate_congr' {β : Type} {n m : Nat} {f g : Nat → β} (hn : n = m) (h : ∀ i, f i = g i) :
    tabulate n f = tabulate m g := by
  subst hn
  rw [show f = g from funext h]

theorem npMin_scl (c : K) (hc : 0 < c) (l : List K) : npMin (scl c l) = c * npMin l := by
  have : ∀ (l : List K) (a : K), (scl c l).foldl min (c * a) = c * l.foldl min a := by
    intro l
    induction l with
    | nil => intro a; rfl
    | cons x l ih =>
      intro a
      rw [show scl c (x :: l) = c * x :: scl c l from rfl, List.foldl_cons, List.foldl_cons,
        ← mul_min_of_nonneg a x hc.le, ih]
  unfold npMin
  rw [scl_headD, show (scl c l).tail = scl c l.tail by simp [scl], this]

theorem npMax_scl (c : K) (hc : 0 < c) (l : List K) : npMax (scl c l) = c * npMax l := by
  have : ∀ (l : List K) (a : K), (scl c l).foldl max (c * a) = c * l.foldl max a := by
    intro l
    induction l with
    | nil => intro a; rfl
    | cons x l ih =>
      intro a
      rw [show scl c (x :: l) = c * x :: scl c l from rfl, List.foldl_cons, List.foldl_cons,
        ← mul_max_of_nonneg a x hc.le, ih]
  unfold npMax
  rw [scl_headD, show (scl c l).tail = scl c l.tail by simp [scl], this]

theorem npMedian_scl (c : K) (hc : 0 < c) (l : List K) : npMedian (scl c l) = c * npMedian l := by
  have hs : (scl c l).insertionSort (· ≤ ·) = scl c (l.insertionSort (· ≤ ·)) := by
    unfold scl
    rw [List.map_insertionSort (r := (· ≤ ·)) (s := (· ≤ ·))]
    intro a _ b _
    exact ⟨fun h => mul_le_mul_of_nonneg_left h hc.le, fun h => le_of_mul_le_mul_left h hc⟩
  unfold npMedian
  rw [hs]
  simp only [scl_length, scl_getD]
  split
  · rfl
  · ring

theorem cumAt_scl (c : K) (f g : Nat → K) (h : ∀ i, g i = c * f i) (n : Nat) : cumAt g n = c * cumAt f n := by
  induction n with
  | zero => simp [cumAt]
  | succ n ih => simp only [cumAt, ih, h]; ring

theorem sumMap_scl {α : Type} (c : K) (f g : α → K) (h : ∀ i, g i = c * f i) (l : List α) :
    (l.map g).sum = c * (l.map f).sum := by
  induction l with
  | nil => simp
  | cons a l ih => simp only [List.map_cons, List.sum_cons, ih, h]; ring

theorem wilderAvg_scl (c : K) (f g : Nat → K) (h : ∀ i, g i = c * f i) (w m : Nat) :
    wilderAvg g w m = c * wilderAvg f w m := by
  induction m with
  | zero => simp only [wilderAvg, sumMap_scl c f g h]; ring
  | succ m ih => simp only [wilderAvg, ih, h]; ring

theorem wilderSum_scl (c : K) (f g : Nat → K) (h : ∀ i, g i = c * f i) (w m : Nat) :
    wilderSum g w m = c * wilderSum f w m := by
  induction m with
  | zero => simp only [wilderSum, sumMap_scl c f g h]
  | succ m ih => simp only [wilderSum, ih, h]; ring

theorem rollSumState_scl (c : K) (f g : Nat → K) (h : ∀ i, g i = c * f i) (w m : Nat) :
    rollSumState g w m = c * rollSumState f w m := by
  induction m with
  | zero => simp only [rollSumState, sumMap_scl c f g h]
  | succ m ih => simp only [rollSumState, ih, h]; ring

theorem pos_scl (c : K) (hc : 0 < c) (x : K) : c * x > 0 ↔ x > 0 :=
  ⟨fun h => (mul_pos_iff_of_pos_left hc).mp h, fun h => mul_pos hc h⟩

theorem pos_scl' (c : K) (hc : 0 < c) (x : K) : 0 < c * x ↔ 0 < x := pos_scl c hc x

theorem neg_scl (c : K) (hc : 0 < c) (x : K) : c * x < 0 ↔ x < 0 :=
  ⟨fun h => by by_contra hx; exact absurd h (not_lt.mpr (mul_nonneg hc.le (not_lt.mp hx))),
    fun h => mul_neg_of_pos_of_neg hc h⟩

theorem le_scl (c : K) (hc : 0 < c) (x y : K) : c * x ≤ c * y ↔ x ≤ y :=
  ⟨fun h => le_of_mul_le_mul_left h hc, fun h => mul_le_mul_of_nonneg_left h hc.le⟩

theorem lt_scl (c : K) (hc : 0 < c) (x y : K) : c * x < c * y ↔ x < y := by
  rw [← not_le, ← not_le, le_scl c hc]

theorem div_scl (c : K) (hc : 0 < c) (x y : K) : c * x / (c * y) = x / y :=
  mul_div_mul_left x y hc.ne'

theorem abs_scl (c : K) (hc : 0 < c) (x : K) : |c * x| = c * |x| := by rw [abs_mul, abs_of_pos hc]

theorem scl_tabulate (c : K) (n : Nat) (g : Nat → K) : scl c (tabulate n g) = tabulate n (fun i => c * g i) := by
  unfold scl tabulate; rw [List.map_map]; rfl

theorem sclO_tabulate (c : K) (n : Nat) (g : Nat → Option K) :
    sclO c (tabulate n g) = tabulate n (fun i => (g i).map (fun x => c * x)) := by
  unfold sclO tabulate; rw [List.map_map]; rfl

theorem validOf_sclO (c : K) (l : List (Option K)) : validOf (sclO c l) = scl c (validOf l) := by
  induction l with
  | nil => rfl
  | cons a l ih =>
    unfold validOf sclO at *
    cases a <;> simp_all [scl]

theorem rolling_sclO (f : List (Option K) → Option K) (c k : K) (xs : List (Option K)) (w : Nat)
    (h : ∀ l, f (sclO c l) = (f l).map (fun x => k * x)) : rolling (sclO c xs) w f = sclO k (rolling xs w f) := by
  unfold rolling
  rw [sclO_tabulate]
  refine tabulate_congr' (sclO_length c xs) (fun i => ?_)
  split
  · rfl
  · rw [window_sclO, h]

/-! ## Features without a unit -/

/-- **C103 (returns).** Relative changes do not depend on the unit of the series. -/
theorem C103_returns (log : K → K) (c : K) (hc : 0 < c) (xs : List K) (p : Nat) (ts : List Int) (w : Int) (isLog : Bool) :
    pctChange (scl c xs) p = pctChange xs p ∧ roc (scl c xs) p = roc xs p ∧
      laggedReturns log ts (scl c xs) w isLog = laggedReturns log ts xs w isLog := by
  refine ⟨?_, ?_, ?_⟩
  · unfold pctChange
    refine tabulate_congr' (scl_length c xs) (fun t => ?_)
    simp only [scl_getD, pos_scl c hc, ← mul_sub, div_scl c hc]
  · unfold roc
    refine tabulate_congr' (scl_length c xs) (fun t => ?_)
    simp only [scl_getD, ← mul_sub, div_scl c hc]
  · unfold laggedReturns
    by_cases h : w ≤ 0
    · rw [if_pos h, if_pos h]
    · rw [if_neg h, if_neg h]
      simp only [Except.ok.injEq]
      refine tabulate_congr' (scl_length c xs) (fun t => ?_)
      have hz : ∀ x : K, c * x ≠ 0 ↔ x ≠ 0 := fun x => by
        rw [Ne, mul_eq_zero, or_iff_right hc.ne']
      simp only [scl_getD, div_scl c hc, hz]

example : (0 : ℚ) < 100 ∧ pctChange (scl 100 [1, 2, (3 : ℚ)]) 1 = [none, some 1, some (1/2)] ∧
    laggedReturns (fun x => x) [0, 10, 20] (scl 100 [1, 2, (3 : ℚ)]) 10 false =
      laggedReturns (fun x => x) [0, 10, 20] [1, 2, (3 : ℚ)] 10 false := by decide +kernel

theorem gainAt_scl (c : K) (hc : 0 < c) (xs : List K) (i : Nat) : gainAt (scl c xs) i = c * gainAt xs i := by
  unfold gainAt
  simp only [scl_getD, ← mul_sub, pos_scl c hc]
  split <;> simp

theorem lossAt_scl (c : K) (hc : 0 < c) (xs : List K) (i : Nat) : lossAt (scl c xs) i = c * lossAt xs i := by
  unfold lossAt
  simp only [scl_getD, ← mul_sub, neg_scl c hc]
  split
  · ring
  · simp

theorem stochState_scl (c : K) (hc : 0 < c) (low high : List K) (len m : Nat) :
    stochState (scl c low) (scl c high) len m = (c * (stochState low high len m).1, c * (stochState low high len m).2) := by
  have hinj : ∀ x y : K, c * x = c * y ↔ x = y := fun x y => mul_right_inj' hc.ne'
  induction m with
  | zero => simp only [stochState, window_scl, npMin_scl c hc, npMax_scl c hc]
  | succ m ih =>
    simp only [stochState, ih, scl_getD, hinj, window_scl, npMin_scl c hc, npMax_scl c hc]
    split
    · rfl
    · rw [mul_min_of_nonneg _ _ hc.le, mul_max_of_nonneg _ _ hc.le]

theorem trAt_scl (c : K) (hc : 0 < c) (high low close : List K) (i : Nat) :
    trAt (scl c high) (scl c low) (scl c close) i = c * trAt high low close i := by
  unfold trAt
  simp only [scl_getD, ← mul_sub, abs_scl c hc]
  rw [mul_max_of_nonneg _ _ hc.le, mul_max_of_nonneg _ _ hc.le]

theorem plusDm_scl (c : K) (hc : 0 < c) (high low : List K) (i : Nat) :
    plusDm (scl c high) (scl c low) i = c * plusDm high low i := by
  unfold plusDm
  simp only [scl_getD, ← mul_sub, pos_scl' c hc, gt_iff_lt, lt_scl c hc]
  split
  · rfl
  · simp

theorem minusDm_scl (c : K) (hc : 0 < c) (high low : List K) (i : Nat) :
    minusDm (scl c high) (scl c low) i = c * minusDm high low i := by
  unfold minusDm
  simp only [scl_getD, ← mul_sub, pos_scl' c hc, gt_iff_lt, lt_scl c hc]
  split
  · rfl
  · simp

theorem diAt_scl (c : K) (hc : 0 < c) (tr tr' dm dm' : Nat → K) (h1 : ∀ i, tr' i = c * tr i)
    (h2 : ∀ i, dm' i = c * dm i) (len m : Nat) : diAt tr' dm' len m = diAt tr dm len m := by
  unfold diAt
  rw [wilderSum_scl c tr tr' h1, wilderSum_scl c dm dm' h2, div_scl c hc]
  by_cases h : wilderSum tr len m > 0
  · rw [if_pos h, if_pos ((pos_scl c hc _).mpr h)]
  · rw [if_neg h, if_neg (fun h' => h ((pos_scl c hc _).mp h'))]

/-- **C103 (oscillators).** RSI, stochastic %K and ADX do not depend on the unit of price. -/
theorem C103_oscillators (c : K) (hc : 0 < c) (xs high low close : List K) (w : Nat) :
    rsiWilder (scl c xs) w = rsiWilder xs w ∧
      stochK (scl c close) (scl c low) (scl c high) w = stochK close low high w ∧
      adxCore (scl c high) (scl c low) (scl c close) w = adxCore high low close w := by
  refine ⟨?_, ?_, ?_⟩
  · unfold rsiWilder
    refine tabulate_congr' (scl_length c xs) (fun i => ?_)
    rw [wilderAvg_scl c _ _ (gainAt_scl c hc xs), wilderAvg_scl c _ _ (lossAt_scl c hc xs)]
    unfold rsiVal
    simp only [pos_scl c hc, div_scl c hc]
  · unfold stochK
    refine tabulate_congr' (scl_length c close) (fun i => ?_)
    rw [stochState_scl c hc, scl_getD]
    unfold stochVal
    simp only [gt_iff_lt, lt_scl c hc, ← mul_sub]
    rw [mul_left_comm, div_scl c hc]
  · unfold adxCore
    refine tabulate_congr' (scl_length c high) (fun i => ?_)
    have : dxAt (scl c high) (scl c low) (scl c close) w = dxAt high low close w := by
      funext j
      unfold dxAt
      rw [diAt_scl c hc _ _ _ _ (trAt_scl c hc high low close) (plusDm_scl c hc high low),
        diAt_scl c hc _ _ _ _ (trAt_scl c hc high low close) (minusDm_scl c hc high low)]
    rw [this]

example : (0 : ℚ) < 7 ∧ rsiWilder (scl 7 [1, 2, 1, (2 : ℚ)]) 2 = rsiWilder [1, 2, 1, 2] 2 ∧
    stochK (scl 7 [2, (3 : ℚ)]) (scl 7 [1, 1]) (scl 7 [4, 4]) 2 = stochK [2, (3 : ℚ)] [1, 1] [4, 4] 2 := by decide +kernel

theorem vwapOut_scl (log : K → K) (c v : K) (hc : 0 < c) (hv : 0 < v) (close volume : List K) (np : Nat) (isLog : Bool)
    (m : Nat) : vwapOut log (scl c close) (scl v volume) np isLog m = vwapOut log close volume np isLog m := by
  have hw : ∀ m, rollSumState (fun k => c * close.getD k 0 * (v * volume.getD k 0)) np m =
      c * v * rollSumState (fun k => close.getD k 0 * volume.getD k 0) np m :=
    fun m => rollSumState_scl (c * v) _ _ (fun i => by ring) np m
  have hvv : ∀ m, rollSumState (fun k => v * volume.getD k 0) np m =
      v * rollSumState (fun k => volume.getD k 0) np m :=
    fun m => rollSumState_scl v _ _ (fun i => rfl) np m
  have hq : ∀ x a b : K, c * x / (c * v * a / (v * b)) = x / (a / b) := by
    intro x a b
    rw [mul_comm c v, mul_assoc, div_scl v hv, mul_div_assoc c a b, div_scl c hc]
  induction m with
  | zero => simp only [vwapOut, hw, hvv, pos_scl v hv, scl_getD, hq]
  | succ m ih => simp only [vwapOut, hw, hvv, pos_scl v hv, scl_getD, hq, ih]

/-- **C103 (distance to the volume-weighted price, burst ratio).** These depend neither on the unit of price nor on the
unit of volume. -/
theorem C103_vwap_burst (log : K → K) (c v : K) (hc : 0 < c) (hv : 0 < v) (close volume : List K) (w : Nat)
    (isLog : Bool) :
    vwapDistance log (scl c close) (scl v volume) w isLog = vwapDistance log close volume w isLog ∧
      burstRatio (scl v volume) w = burstRatio volume w := by
  constructor
  · unfold vwapDistance
    refine tabulate_congr' (scl_length c close) (fun i => ?_)
    rw [vwapOut_scl log c v hc hv]
  · unfold burstRatio rolling
    refine tabulate_congr' (scl_length v volume) (fun i => ?_)
    simp only [window_scl, npMedian_scl v hv, scl_getLastD, div_scl v hv, pos_scl v hv]

example : (0 : ℚ) < 7 ∧ (0 : ℚ) < 3 ∧ vwapDistance (fun x => x) (scl 7 [1, 2, (4 : ℚ)]) (scl 3 [1, 1, 2]) 2 false =
    vwapDistance (fun x => x) [1, 2, (4 : ℚ)] [1, 1, 2] 2 false := by decide +kernel

/-- **C103 (z-score, Bollinger %B).** These do not depend on the unit of the series. -/
theorem C103_zscore_bollinger (sqrt : K → K) (hsq : SqrtHom sqrt) (c : K) (hc : 0 < c) (xs : List K) (w ddof : Nat)
    (hw : ddof ≤ w) (numStd : K) :
    zscore sqrt (scl c xs) w ddof = zscore sqrt xs w ddof ∧
      (2 ≤ w → bollingerB sqrt (scl c xs) w numStd = bollingerB sqrt xs w numStd) := by
  constructor
  · unfold zscore rolling tabulate
    rw [scl_length]
    apply List.map_congr_left
    intro i hi
    rw [List.mem_range] at hi
    by_cases h : i + 1 < w
    · rw [if_pos h, if_pos h]
    · rw [if_neg h, if_neg h, window_scl]
      have hlen : (window xs w i).length = w := by
        unfold window; rw [List.length_take, List.length_drop]; omega
      generalize window xs w i = l at hlen
      unfold zscoreWin
      have hm : c * l.sum / (l.length : K) = c * (l.sum / (l.length : K)) := mul_div_assoc _ _ _
      simp only [scl_sum, scl_length, scl_getLastD, hm, ← mul_sub]
      have hv : ((scl c l).map (fun x => (x - c * (l.sum / (l.length : K))) ^ 2)).sum =
          c * c * (l.map (fun x => (x - l.sum / (l.length : K)) ^ 2)).sum := by
        generalize l.sum / (l.length : K) = mu
        clear hlen hm
        induction l with
        | nil => simp [scl]
        | cons a l ih =>
          rw [show scl c (a :: l) = c * a :: scl c l from rfl]
          simp only [List.map_cons, List.sum_cons, ih]; ring
      have hnn : 0 ≤ (l.map (fun x => (x - l.sum / (l.length : K)) ^ 2)).sum / ((l.length : K) - (ddof : K)) := by
        apply div_nonneg
        · apply List.sum_nonneg; intro y hy
          obtain ⟨x, _, rfl⟩ := List.mem_map.mp hy
          exact sq_nonneg _
        · have : ((ddof : Nat) : K) ≤ ((w : Nat) : K) := by exact_mod_cast hw
          rw [hlen]; linarith
      rw [hv, mul_div_assoc, hsq c _ hc.le hnn, div_scl c hc]
      simp only [Ne, mul_eq_zero, hc.ne', false_or]
  · intro hw2
    unfold bollingerB
    refine tabulate_congr' (scl_length c xs) (fun i => ?_)
    have h1 : ∀ m, rollSumState (fun k => (scl c xs).getD k 0) w m = c * rollSumState (fun k => xs.getD k 0) w m :=
      fun m => rollSumState_scl c _ _ (fun k => scl_getD c xs k) w m
    have h2 : ∀ m, rollSumState (fun k => (scl c xs).getD k 0 ^ 2) w m =
        c * c * rollSumState (fun k => xs.getD k 0 ^ 2) w m :=
      fun m => rollSumState_scl (c * c) _ _ (fun k => by simp only [scl_getD]; ring) w m
    rw [h1, h2, scl_getD]
    generalize rollSumState (fun k => xs.getD k 0) w (i + 1 - w) = s
    generalize rollSumState (fun k => xs.getD k 0 ^ 2) w (i + 1 - w) = q
    generalize xs.getD i 0 = y
    have : bollingerVal sqrt w numStd (c * y) (c * s) (c * c * q) = bollingerVal sqrt w numStd y s q := by
      unfold bollingerVal
      have e1 : (c * c * q - (w : K) * (c * s / (w : K)) * (c * s / (w : K))) / ((w : K) - 1) =
          c * c * ((q - (w : K) * (s / (w : K)) * (s / (w : K))) / ((w : K) - 1)) := by ring
      have e2 : ∀ x : K, max (c * c * x) 0 = c * c * max x 0 := by
        intro x
        have := mul_max_of_nonneg x 0 (mul_pos hc hc).le
        rw [mul_zero] at this; rw [this]
      simp only [e1, e2, hsq c _ hc.le (le_max_right _ _)]
      have e3 : c * s / (w : K) = c * (s / (w : K)) := by ring
      have e4 : ∀ z : K, numStd * (c * z) = c * (numStd * z) := fun z => by ring
      simp only [e3, e4, ← mul_sub, ← mul_add, gt_iff_lt, lt_scl c hc, div_scl c hc]
    rw [this]

example : SqrtHom Real.sqrt := fun a x ha _ => by rw [Real.sqrt_mul (mul_self_nonneg a), Real.sqrt_mul_self ha]

/-! ## Features that carry the unit -/

/-- **C103 (means and ranges).** Exponential and simple moving averages, true ranges, realised volatility and average
true ranges (not normalised) are multiplied by the factor of the unit. -/
theorem C103_means (c : K) (xs : List K) (span w : Nat) :
    (∀ r, ewma xs span = .ok r → ewma (scl c xs) span = .ok (scl c r)) ∧
      sma (scl c xs) w = sclO c (sma xs w) := by
  constructor
  · intro r hr
    unfold ewma at hr ⊢
    by_cases h : span < 1
    · rw [if_pos h] at hr; cases hr
    · rw [if_neg h] at hr ⊢
      simp only [Except.ok.injEq] at hr ⊢
      rw [← hr]
      have hst : ∀ q t, ewmaState (scl c xs) q t = (c * (ewmaState xs q t).1, (ewmaState xs q t).2) := by
        intro q t
        induction t with
        | zero => simp only [ewmaState, scl_getD]
        | succ t ih =>
          simp only [ewmaState, ih, scl_getD]
          rw [Prod.mk.injEq]; exact ⟨by ring, rfl⟩
      rw [scl_tabulate]
      refine tabulate_congr' (scl_length c xs) (fun i => ?_)
      simp only [hst, mul_div_assoc]
  · unfold sma rolling
    rw [sclO_tabulate]
    refine tabulate_congr' (scl_length c xs) (fun i => ?_)
    simp only [window_scl, scl_sum]
    split
    · rfl
    · simp only [Option.map_some, Option.some.injEq]; ring

theorem trueRangeAt_scl (c : K) (hc : 0 < c) (high low close : List (Option K)) (i : Nat) :
    trueRangeAt (sclO c high) (sclO c low) (sclO c close) i = (trueRangeAt high low close i).map (fun x => c * x) := by
  unfold trueRangeAt
  simp only [sclO_getD]
  split
  · cases high.getD 0 none <;> cases low.getD 0 none <;> simp [mul_sub]
  · cases high.getD i none <;> cases low.getD i none <;> cases close.getD (i - 1) none <;>
      simp only [Option.map_some, Option.map_none, ← mul_sub, abs_scl c hc, mul_max_of_nonneg _ _ hc.le]

theorem trueRange_scl (c : K) (hc : 0 < c) (high low close tr : List (Option K)) (h : trueRange high low close = .ok tr) :
    trueRange (sclO c high) (sclO c low) (sclO c close) = .ok (sclO c tr) := by
  unfold trueRange at h ⊢
  simp only [sclO_length]
  by_cases hl : high.length = low.length ∧ low.length = close.length
  · rw [if_pos hl] at h ⊢
    cases h
    rw [sclO_tabulate, Except.ok.injEq]
    exact tabulate_congr' rfl (trueRangeAt_scl c hc high low close)
  · rw [if_neg hl] at h; cases h

theorem validMean_scl (c : K) (l : List (Option K)) : validMean (sclO c l) = (validMean l).map (fun x => c * x) := by
  unfold validMean
  simp only [validOf_sclO, scl_length, scl_sum, mul_div_assoc]
  split <;> rfl

theorem atrEma_scl (c : K) (tr : List (Option K)) (w m : Nat) :
    atrEma (sclO c tr) w m = (atrEma tr w m).map (fun x => c * x) := by
  induction m with
  | zero =>
    simp only [atrEma]
    rw [show (sclO c tr).take w = sclO c (tr.take w) by simp [sclO], validMean_scl]
  | succ m ih =>
    simp only [atrEma, ih, sclO_getD]
    cases tr.getD (w + m) none <;> cases atrEma tr w m <;> simp only [Option.map_some, Option.map_none]
    rw [Option.some.injEq]; ring

theorem atr_getD (high low close tr : List (Option K)) (w : Nat) (ema : Bool) (c : K)
    (i : Nat) :
    (if i + 1 < w then none else if ema = true then atrEma (sclO c tr) w (i + 1 - w)
      else atrSma (sclO c high) (sclO c low) (sclO c close) (sclO c tr) w i) =
    (if i + 1 < w then none else if ema = true then atrEma tr w (i + 1 - w)
      else atrSma high low close tr w i).map (fun x => c * x) := by
  have hn : ∀ l : List (Option K), ∀ i, ((sclO c l).getD i none).isNone = (l.getD i none).isNone := by
    intro l i; rw [sclO_getD]; cases l.getD i none <;> rfl
  simp only [atrEma_scl, atrSma, hn, window_sclO, validMean_scl]
  split
  · rfl
  · split
    · rfl
    · split <;> rfl

/-- **C103 (true range and its average).** True ranges and average true ranges that are not normalised carry the unit of
price. -/
theorem C103_atr (c : K) (hc : 0 < c) (high low close r : List (Option K)) (w : Nat) (ema : Bool) :
    (trueRange high low close = .ok r → trueRange (sclO c high) (sclO c low) (sclO c close) = .ok (sclO c r)) ∧
    (atr high low close w ema false = .ok r →
      atr (sclO c high) (sclO c low) (sclO c close) w ema false = .ok (sclO c r)) := by
  refine ⟨trueRange_scl c hc high low close r, ?_⟩
  intro h
  unfold atr at h ⊢
  cases ht : trueRange high low close with
  | error e => rw [ht] at h; cases h
  | ok tr =>
    rw [ht] at h
    rw [trueRange_scl c hc high low close tr ht]
    simp only [Except.ok.injEq] at h ⊢
    rw [← h, sclO_tabulate]
    refine tabulate_congr' (sclO_length c high) (fun i => ?_)
    simp only [Bool.false_eq_true, if_false]
    exact atr_getD high low close tr w ema c i

example : trueRange [some (3 : ℚ), some 5] [some 1, some 2] [some 2, some 4] = .ok [some 2, some 3] ∧
    trueRange (sclO 7 [some (3 : ℚ), some 5]) (sclO 7 [some 1, some 2]) (sclO 7 [some 2, some 4]) = .ok [some 14, some 21] := by
  decide +kernel

/-- **C103 (normalised average true range).** If every bar has a high and a low with positive midpoint, the normalised
average true range has no unit. -/
theorem C103_atr_normalized (c : K) (hc : 0 < c) (high low close : List (Option K)) (w : Nat) (ema : Bool)
    (hp : ∀ i, i < high.length → ∃ h l, high.getD i none = some h ∧ low.getD i none = some l ∧ 0 < h + l) :
    atr (sclO c high) (sclO c low) (sclO c close) w ema true = atr high low close w ema true := by
  unfold atr
  cases ht : trueRange high low close with
  | error e =>
    have : trueRange (sclO c high) (sclO c low) (sclO c close) = .error e := by
      unfold trueRange at ht ⊢
      simp only [sclO_length]
      by_cases hl : high.length = low.length ∧ low.length = close.length
      · rw [if_pos hl] at ht; cases ht
      · rw [if_neg hl] at ht ⊢; exact ht
    rw [this]
  | ok tr =>
    rw [trueRange_scl c hc high low close tr ht]
    simp only [Except.ok.injEq, atr_getD, if_true]
    unfold tabulate
    rw [sclO_length]
    apply List.map_congr_left
    intro i hi
    rw [List.mem_range] at hi
    obtain ⟨h, l, e1, e2, hpos⟩ := hp i hi
    generalize (if i + 1 < w then none else if ema = true then atrEma tr w (i + 1 - w)
      else atrSma high low close tr w i) = a
    unfold atrNormalize
    simp only [sclO_getD, e1, e2, Option.map_some]
    have hm : 0 < (h + l) / 2 := by linarith
    have e3 : (c * h + c * l) / 2 = c * ((h + l) / 2) := by ring
    cases a with
    | none => rfl
    | some x =>
      simp only [Option.map_some]
      rw [e3, if_pos (mul_pos hc hm), if_pos hm, div_scl c hc]

example : ∀ i, i < ([some (3 : ℚ), some 5] : List (Option ℚ)).length → ∃ h l, [some (3 : ℚ), some 5].getD i none = some h ∧
    [some (1 : ℚ), some 2].getD i none = some l ∧ 0 < h + l := by
  intro i hi
  rcases (by simpa using hi : i < 2) |> (by omega : i < 2 → i = 0 ∨ i = 1) with rfl | rfl
  · exact ⟨3, 1, rfl, rfl, by norm_num⟩
  · exact ⟨5, 2, rfl, rfl, by norm_num⟩

theorem sumSq_scl (c : K) (l : List K) (f : K → K) (hf : ∀ x, f (c * x) = c * c * f x) :
    ((scl c l).map f).sum = c * c * (l.map f).sum := by
  induction l with
  | nil => simp [scl]
  | cons a l ih =>
    rw [show scl c (a :: l) = c * a :: scl c l from rfl]
    simp only [List.map_cons, List.sum_cons, ih, hf]; ring

/-- **C103 (volatility).** Realised volatility carries the unit of its input; the rolling variance carries its square. -/
theorem C103_volatility (sqrt : K → K) (hsq : SqrtHom sqrt) (c : K) (hc : 0 < c) (xs : List (Option K))
    (w ddof minPeriods : Nat) (isSample : Bool) :
    realizedVol sqrt (sclO c xs) w isSample = sclO c (realizedVol sqrt xs w isSample) ∧
      rollingVariance (sclO c xs) w ddof minPeriods = sclO (c * c) (rollingVariance xs w ddof minPeriods) := by
  constructor
  · unfold realizedVol
    apply rolling_sclO
    intro l
    unfold realizedWin
    simp only [validOf_sclO, scl_length]
    split
    · rename_i hlen
      rw [Option.map_some, sumSq_scl c _ _ (fun x => by ring), mul_div_assoc, hsq c _ hc.le]
      apply div_nonneg
      · apply List.sum_nonneg; intro y hy
        obtain ⟨x, _, rfl⟩ := List.mem_map.mp hy
        exact sq_nonneg _
      · have : (1 : K) ≤ ((validOf l).length : K) := by exact_mod_cast hlen.le
        split <;> linarith
    · rfl
  · unfold rollingVariance
    apply rolling_sclO
    intro l
    unfold varWin
    simp only [validOf_sclO, scl_length, scl_sum]
    split
    · split
      · rw [Option.map_some, sumSq_scl c _ _ (fun x => by ring), Option.some.injEq]
        have := mul_max_of_nonneg 0 (((List.map (fun x => x * x) (validOf l)).sum / ((validOf l).length : K) -
          (validOf l).sum / ((validOf l).length : K) * ((validOf l).sum / ((validOf l).length : K))) *
          (((validOf l).length : K) / (((validOf l).length : K) - (ddof : K)))) (mul_pos hc hc).le
        rw [this, mul_zero]
        congr 1; ring
      · rfl
    · rfl

example : rollingVariance (sclO 3 [some (1 : ℚ), some 3, some 2]) 2 1 2 =
    sclO 9 (rollingVariance [some (1 : ℚ), some 3, some 2] 2 1 2) ∧
    rollingVariance [some (1 : ℚ), some 3, some 2] 2 1 2 = [none, some 2, some (1 / 2)] := by decide +kernel

/-- **C103 (variance ratio, Parkinson range).** These have no unit. -/
theorem C103_variance_ratio (log : K → K) (isLog : Bool) (c : K) (hc : 0 < c) (price : List (Option K)) (w ddof : Nat)
    (high low : List K) :
    varianceRatio log isLog (sclO c price) w ddof = varianceRatio log isLog price w ddof ∧
      parkinson log (scl c high) (scl c low) = parkinson log high low := by
  constructor
  · have hr : vrReturn log isLog (sclO c price) = vrReturn log isLog price := by
      funext i
      have hle : ∀ x : K, c * x ≤ 0 ↔ x ≤ 0 := fun x => by
        have := le_scl c hc x 0; rwa [mul_zero] at this
      unfold vrReturn
      simp only [sclO_getD]
      cases price.getD i none <;> cases price.getD (i - 1) none <;>
        simp only [Option.map_some, Option.map_none, hle, div_scl c hc]
    unfold varianceRatio
    rw [hr, sclO_length]
  · unfold parkinson
    refine tabulate_congr' (scl_length c high) (fun i => ?_)
    simp only [scl_getD, div_scl c hc]

example : (0 : ℚ) < 7 ∧ parkinson (fun x => x) (scl 7 [3, (4 : ℚ)]) (scl 7 [2, 2]) = parkinson (fun x => x) [3, (4 : ℚ)] [2, 2] := by
  decide +kernel

/-! ## Exponentially weighted deviations -/

theorem orZero_scl (c : K) (v : Option K) : orZero (v.map (fun x => c * x)) = c * orZero v := by
  cases v <;> simp [orZero]

theorem sqOrZero_scl (c : K) (v : Option K) : sqOrZero (v.map (fun x => c * x)) = c * c * sqOrZero v := by
  cases v
  · simp [sqOrZero]
  · simp only [Option.map_some, sqOrZero]; ring

theorem validWeight_scl (c : K) (v : Option K) : validWeight (v.map (fun x => c * x)) = validWeight v := by
  cases v <;> rfl

/-- The accumulator of a series in another unit. -/
def EwmAcc.scale (c : K) (s : EwmAcc K) : EwmAcc K := ⟨s.sw, s.sw2, c * s.sy, c * c * s.sy2⟩

theorem ewmsState_scl (c : K) (y : List (Option K)) (q : K) (t : Nat) :
    ewmsState (sclO c y) q t = (ewmsState y q t).scale c := by
  induction t with
  | zero => simp [ewmsState, EwmAcc.scale]
  | succ t ih =>
    simp only [ewmsState, ih, sclO_getD, orZero_scl, sqOrZero_scl, validWeight_scl, EwmAcc.scale]
    rw [EwmAcc.mk.injEq]; exact ⟨rfl, rfl, by ring, by ring⟩

theorem ewmstState_scl (c : K) (decay : Int → K) (ts : List Int) (y : List (Option K)) (t : Nat) :
    ewmstState decay ts (sclO c y) t = (ewmstState decay ts y t).scale c := by
  induction t with
  | zero => simp [ewmstState, EwmAcc.scale]
  | succ t ih =>
    simp only [ewmstState, ih, sclO_getD, orZero_scl, sqOrZero_scl, EwmAcc.scale]
    rw [EwmAcc.mk.injEq]; exact ⟨rfl, rfl, by ring, by ring⟩

theorem ewmst0State_scl (c : K) (decay : Int → K) (ts : List Int) (y : List (Option K)) (t : Nat) :
    ewmst0State decay ts (sclO c y) t = (c * c * (ewmst0State decay ts y t).1, (ewmst0State decay ts y t).2) := by
  induction t with
  | zero => simp [ewmst0State]
  | succ t ih =>
    simp only [ewmst0State, ih, sclO_getD]
    cases y.getD (t + 1) none
    · simp only [Option.map_none]; rw [Prod.mk.injEq]; exact ⟨by ring, rfl⟩
    · simp only [Option.map_some]; rw [Prod.mk.injEq]; exact ⟨by ring, rfl⟩

/-- **C103 (exponentially weighted deviations).** The deviation of `ewms` carries the unit of its input.  The
time-decayed deviations do so provided the volatility floor, an absolute number, is converted as well. -/
theorem C103_ewm (sqrt : K → K) (hsq : SqrtHom sqrt) (c : K) (hc : 0 < c) (y : List (Option K)) (span : Nat)
    (decay : Int → K) (floor : K) (ts : List Int) :
    ewms sqrt (sclO c y) span = sclO c (ewms sqrt y span) ∧
      ewmst sqrt decay (c * floor) ts (sclO c y) = sclO c (ewmst sqrt decay floor ts y) ∧
      ewmstMean0 sqrt decay (c * floor) ts (sclO c y) = sclO c (ewmstMean0 sqrt decay floor ts y) := by
  have hmax : ∀ x : K, max (c * c * x) 0 = c * c * max x 0 := by
    intro x
    have := mul_max_of_nonneg x 0 (mul_pos hc hc).le
    rw [mul_zero] at this; rw [this]
  refine ⟨?_, ?_, ?_⟩
  · unfold ewms
    split
    · rw [sclO_tabulate]; exact tabulate_congr' (sclO_length c y) (fun _ => rfl)
    · simp only
      rw [sclO_tabulate]
      refine tabulate_congr' (sclO_length c y) (fun i => ?_)
      rw [ewmsState_scl]
      generalize ewmsState y (1 - 2 / ((span : K) + 1)) (i + 1) = s
      unfold ewmVal EwmAcc.scale
      simp only
      split
      · split
        · rw [Option.map_some, Option.some.injEq, ← hsq c _ hc.le (le_max_right _ _), ← hmax]
          congr 2; ring
        · rfl
      · rfl
  · unfold ewmst
    rw [sclO_tabulate]
    refine tabulate_congr' (sclO_length c y) (fun i => ?_)
    split
    · rfl
    · rw [ewmstState_scl]
      generalize ewmstState decay ts y i = s
      unfold ewmstVal EwmAcc.scale
      simp only
      split
      · rename_i hw
        have e1 : c * c * s.sy2 / s.sw - c * s.sy / s.sw * (c * s.sy / s.sw) =
            c * c * (s.sy2 / s.sw - s.sy / s.sw * (s.sy / s.sw)) := by ring
        rw [e1]
        generalize s.sy2 / s.sw - s.sy / s.sw * (s.sy / s.sw) = raw
        have e2 : (if s.sw - s.sw2 / s.sw > 0 ∧ c * c * raw > 0 then c * c * raw * (s.sw / (s.sw - s.sw2 / s.sw)) else 0) =
            c * c * (if s.sw - s.sw2 / s.sw > 0 ∧ raw > 0 then raw * (s.sw / (s.sw - s.sw2 / s.sw)) else 0) := by
          simp only [pos_scl (c * c) (mul_pos hc hc)]
          split
          · ring
          · simp
        have e3 : 0 ≤ (if s.sw - s.sw2 / s.sw > 0 ∧ raw > 0 then raw * (s.sw / (s.sw - s.sw2 / s.sw)) else 0) := by
          split
          · rename_i h; exact mul_nonneg h.2.le (div_nonneg (le_of_lt hw) h.1.le)
          · exact le_refl _
        rw [e2, hsq c _ hc.le e3]
        simp only [lt_scl c hc, Option.map_some]
        rw [Option.some.injEq]
        generalize sqrt _ = z
        split <;> rfl
      · rfl
  · unfold ewmstMean0
    rw [sclO_tabulate]
    refine tabulate_congr' (sclO_length c y) (fun i => ?_)
    split
    · rfl
    · rw [ewmst0State_scl]
      simp only
      split
      · rw [Option.map_some, Option.some.injEq]
        unfold floorStd
        rw [mul_div_assoc]
        generalize (ewmst0State decay ts y i).1 / (ewmst0State decay ts y i).2 = var
        have e1 : (if c * c * var < 0 then 0 else c * c * var) = c * c * (if var < 0 then 0 else var) := by
          simp only [neg_scl (c * c) (mul_pos hc hc)]
          split <;> simp
        have e2 : 0 ≤ (if var < 0 then 0 else var) := by
          split
          · exact le_refl _
          · rename_i h; exact not_lt.mp h
        simp only [e1, hsq c _ hc.le e2, lt_scl c hc]
        generalize sqrt _ = z
        split <;> rfl
      · rfl

example : SqrtHom Real.sqrt ∧ (0 : ℝ) < 3 := ⟨fun a x ha _ => by rw [Real.sqrt_mul (mul_self_nonneg a), Real.sqrt_mul_self ha], by norm_num⟩

/-! ## Features of two series -/

theorem optLe_scl (c : K) (hc : 0 < c) (a b : Option K) :
    optLe (a.map (fun x => c * x)) (b.map (fun x => c * x)) = optLe a b := by
  cases a <;> cases b <;> simp only [optLe, Option.map_some, Option.map_none, le_scl c hc]

theorem simpleReturn_scl (c : K) (hc : 0 < c) (price : List (Option K)) : simpleReturn (sclO c price) = simpleReturn price := by
  funext i
  unfold simpleReturn
  have hz : ∀ x : K, c * x ≠ 0 ↔ x ≠ 0 := fun x => by rw [Ne, mul_eq_zero, or_iff_right hc.ne']
  simp only [sclO_getD]
  cases price.getD i none <;> cases price.getD (i - 1) none <;>
    simp only [Option.map_some, Option.map_none, hz, ← mul_sub, div_scl c hc]

theorem corrOf_scl (sqrt : K → K) (hsq : SqrtHom sqrt) (v : K) (hv : 0 < v) (l : List (K × K)) :
    corrOf sqrt (l.map (fun p => (p.1, v * p.2))) = corrOf sqrt l := by
  unfold corrOf
  simp only [List.length_map, List.map_map]
  split
  · rfl
  · have m1 : (l.map ((fun p : K × K => p.1) ∘ fun p => (p.1, v * p.2))).sum = (l.map (·.1)).sum := rfl
    have m2 : (l.map ((fun p : K × K => p.2) ∘ fun p => (p.1, v * p.2))).sum = v * (l.map (·.2)).sum :=
      sumMap_scl v _ _ (fun p => rfl) l
    rw [m1, m2, mul_div_assoc]
    generalize (l.map (·.1)).sum / (l.length : K) = mr
    generalize (l.map (·.2)).sum / (l.length : K) = mv
    have g1 : (l.map ((fun p : K × K => (p.1 - mr) * (p.2 - v * mv)) ∘ fun p => (p.1, v * p.2))).sum =
        v * (l.map (fun p => (p.1 - mr) * (p.2 - mv))).sum :=
      sumMap_scl v _ _ (fun p => by simp only [Function.comp]; ring) l
    have g2 : (l.map ((fun p : K × K => (p.2 - v * mv) * (p.2 - v * mv)) ∘ fun p => (p.1, v * p.2))).sum =
        v * v * (l.map (fun p => (p.2 - mv) * (p.2 - mv))).sum :=
      sumMap_scl (v * v) _ _ (fun p => by simp only [Function.comp]; ring) l
    have g3 : (l.map ((fun p : K × K => (p.1 - mr) * (p.1 - mr)) ∘ fun p => (p.1, v * p.2))).sum =
        (l.map (fun p => (p.1 - mr) * (p.1 - mr))).sum := rfl
    rw [g1, g2, g3]
    generalize hsr : (l.map (fun p : K × K => (p.1 - mr) * (p.1 - mr))).sum = sr
    generalize hsv : (l.map (fun p : K × K => (p.2 - mv) * (p.2 - mv))).sum = sv
    generalize (l.map (fun p : K × K => (p.1 - mr) * (p.2 - mv))).sum = cov
    simp only [pos_scl (v * v) (mul_pos hv hv)]
    split
    · rename_i h
      have : v * cov / (sqrt sr * sqrt (v * v * sv)) = cov / (sqrt sr * sqrt sv) := by
        rw [hsq v sv hv.le h.2.le, mul_left_comm, div_scl v hv]
      rw [this]
    · rfl

/-- **C103 (price-volume correlation).** It depends neither on the unit of price nor on the unit of volume. -/
theorem C103_correlation (sqrt : K → K) (hsq : SqrtHom sqrt) (c v : K) (hc : 0 < c) (hv : 0 < v)
    (price volume : List (Option K)) (w : Nat) :
    priceVolumeCorrelation sqrt (sclO c price) (sclO v volume) w = priceVolumeCorrelation sqrt price volume w := by
  unfold priceVolumeCorrelation
  refine tabulate_congr' (sclO_length c price) (fun i => ?_)
  have hd : ∀ (k : K) (_ : 0 < k) (xs : List (Option K)), noDecrease (sclO k xs) w i = noDecrease xs w i := by
    intro k hk xs; unfold noDecrease; simp only [sclO_getD, optLe_scl k hk]
  have hu : noIncrease (sclO v volume) w i = noIncrease volume w i := by
    unfold noIncrease; simp only [sclO_getD, optLe_scl v hv]
  have hn : ((sclO v volume).getD i none).isNone = (volume.getD i none).isNone := by
    rw [sclO_getD]; cases volume.getD i none <;> rfl
  have hp : validPairs (sclO c price) (sclO v volume) w i =
      (validPairs price volume w i).map (fun p => (p.1, v * p.2)) := by
    unfold validPairs
    rw [simpleReturn_scl c hc, List.map_filterMap]
    congr 1
    funext j
    rw [sclO_getD]
    cases simpleReturn price j <;> cases volume.getD j none <;> rfl
  unfold corrAt
  rw [simpleReturn_scl c hc, hn, hd c hc, hd v hv, hu, hp, corrOf_scl sqrt hsq v hv]

example : pctChange (scl 100 [1, 2, (3 : ℚ)]) 1 = [none, some 1, some (1/2)] ∧
    sma (scl 100 [1, 2, (3 : ℚ)]) 2 = [none, some 150, some 250] ∧
    (rsiWilder (scl 100 [1, 2, 1, (2 : ℚ)]) 2) = rsiWilder [1, 2, 1, 2] 2 ∧ SqrtHom (fun _ : ℚ => 0) :=
  ⟨by decide +kernel, by decide +kernel, by decide +kernel, fun a x _ _ => by ring⟩

/-! ## Features with absolute constants -/

/-- **C103 (absolute constants).** `vpin` and the flow acceleration compare with absolute constants; they do not depend
on the unit of volume if these are converted as well (volatility floors: `C103_ewm`). -/
theorem C103_constants (log : K → K) (eps v : K) (hv : 0 < v) (b s : List (Option K)) (vol : List K) (w r : Nat) :
    vpin (v * eps) (sclO v b) (sclO v s) w = vpin eps b s w ∧
      flowAcceleration log (v * eps) (scl v vol) w r = flowAcceleration log eps vol w r := by
  constructor
  · have hterm : ∀ f : K → K → K, (∀ x y, f (v * x) (v * y) = v * f x y) →
        ∀ n, cumAt (vpinTerm f (sclO v b) (sclO v s)) n = v * cumAt (vpinTerm f b s) n := by
      intro f hf n
      apply cumAt_scl
      intro i
      unfold vpinTerm
      simp only [sclO_getD]
      cases b.getD i none <;> cases s.getD i none <;> simp only [Option.map_some, Option.map_none, mul_zero, hf]
    have hnan : vpinNan (sclO v b) (sclO v s) = vpinNan b s := by
      funext i
      unfold vpinNan
      simp only [sclO_getD]
      cases b.getD i none <;> cases s.getD i none <;> rfl
    unfold vpin
    simp only
    refine tabulate_congr' (sclO_length v b) (fun i => ?_)
    rw [hnan]
    simp only [hterm (fun x _ => x) (fun _ _ => rfl), hterm (fun _ y => y) (fun _ _ => rfl),
      hterm (fun x y => |x - y|) (fun x y => by rw [← mul_sub, abs_scl v hv]), ← mul_sub, ← mul_add, gt_iff_lt,
      lt_scl v hv, div_scl v hv]
  · have hs : ∀ n, cumAt (fun i => (scl v vol).getD i 0) n = v * cumAt (fun i => vol.getD i 0) n :=
      fun n => cumAt_scl v _ _ (fun i => scl_getD v vol i) n
    unfold flowAcceleration
    rw [scl_length]
    split
    · rfl
    · simp only
      refine tabulate_congr' rfl (fun i => ?_)
      rw [hs, hs, hs, ← mul_sub, ← mul_sub, ← mul_add, ← mul_add, div_scl v hv]

example : (0 : ℚ) < 7 ∧ vpin (7 / 100) (sclO 7 ([some 3, some 1] : List (Option ℚ))) (sclO 7 [some 1, some 1]) 2 = [none, some (1 / 3)] := by
  decide +kernel

/-- **C103 (units matter).** With the constants of the code the unit of volume matters: in units a hundred
million times larger the same flow has no VPIN, because the total no longer exceeds `1e-9`. -/
theorem C103_vpin_unit :
    vpin (1/1000000000 : ℚ) [some (1/1000), some (1/2000)] [some (1/4000), some (1/1000)] 2 = [none, some (5/11)] ∧
      vpin (1/1000000000 : ℚ) (sclO (1/100000000) [some (1/1000), some (1/2000)])
        (sclO (1/100000000) [some (1/4000), some (1/1000)]) 2 = [none, none] := by
  decide +kernel

/-- **C103 (missing highs).** A bar without high price keeps the price unit in its normalised average true range: it is
not divided by the midpoint. -/
theorem C103_atr_missing_high :
    (atr [some (10 : ℚ), some 12, some 13, none] [some 9, some 10, some 11, some 12] [some 9, some 11, some 12, some 12] 2
      false true).toOption.map (fun l => l.getD 3 none) = some (some 2) ∧
    (atr (sclO 100 [some (10 : ℚ), some 12, some 13, none]) (sclO 100 [some 9, some 10, some 11, some 12])
      (sclO 100 [some 9, some 11, some 12, some 12]) 2 false true).toOption.map (fun l => l.getD 3 none) =
        some (some 200) := by
  decide +kernel

end FinML
