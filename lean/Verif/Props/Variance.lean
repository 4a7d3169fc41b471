/-
C38: variance estimators (`finmlkit/feature/core/volatility.py`), with C55 (time-decayed deviations) and C56 (true range, ATR and
window statistics).
-/
import Verif.Props.Ewma
import Verif.Lemmas.Median

set_option linter.unusedSectionVars false

namespace FinML

variable {K : Type} [Field K] [LinearOrder K] [IsStrictOrderedRing K]

/-! ## Rolling variance -/

theorem sum_sq_dev (l : List K) (c : K) :
    (l.map (fun x => (x - c) ^ 2)).sum = (l.map (fun x => x * x)).sum - 2 * c * l.sum + (l.length : K) * c ^ 2 := by
  induction l with
  | nil => simp
  | cons a t ih =>
    simp only [List.map_cons, List.sum_cons, List.length_cons, Nat.cast_add, Nat.cast_one]
    rw [ih]; ring

/-- Two-pass variance with `ddof` delta degrees of freedom. -/
def twoPassVar (ddof : Nat) (v : List K) : K :=
  (v.map (fun x => (x - v.sum / (v.length : K)) ^ 2)).sum / ((v.length : K) - (ddof : K))

/-- **C38.**  The rolling variance of a full window is the two-pass variance of its present values: NaN if there are fewer than `min_periods` of
them or not more than `ddof`. -/
theorem C38_rolling_variance_exact (xs : List (Option K)) (w ddof mp i : Nat) (hi : i < xs.length) :
    (rollingVariance xs w ddof mp)[i]? = some (
      let v := ((xs.drop (i + 1 - w)).take w).filterMap id
      if w ≤ i + 1 ∧ mp ≤ v.length ∧ ddof < v.length then some (twoPassVar ddof v) else none) := by
  unfold rollingVariance
  rw [rolling_get? _ _ _ _ hi]
  congr 1
  simp only
  by_cases hw : i + 1 < w
  · rw [if_pos hw, if_neg (by omega)]
  rw [if_neg hw]
  unfold varWin validOf
  rw [show window xs w i = (xs.drop (i + 1 - w)).take w from rfl]
  generalize ((xs.drop (i + 1 - w)).take w).filterMap id = v
  simp only
  by_cases h1 : v.length ≥ mp
  · by_cases h2 : v.length > ddof
    · rw [if_pos h1, if_pos h2, if_pos ⟨by omega, h1, h2⟩]
      have hn0 : (v.length : K) ≠ 0 := by exact_mod_cast (by omega : v.length ≠ 0)
      have hd : (0 : K) < (v.length : K) - (ddof : K) := by
        have : (ddof : K) < (v.length : K) := by exact_mod_cast h2
        linarith
      have e : ((v.map (fun x => x * x)).sum / (v.length : K) - v.sum / (v.length : K) * (v.sum / (v.length : K))) *
          ((v.length : K) / ((v.length : K) - (ddof : K))) = twoPassVar ddof v := by
        unfold twoPassVar
        rw [sum_sq_dev]
        have hd0 := ne_of_gt hd
        field_simp
        ring
      rw [e, max_eq_right]
      unfold twoPassVar
      exact div_nonneg (sum_map_nonneg _ _ (fun x _ => sq_nonneg _)) hd.le
    · rw [if_pos h1, if_neg h2, if_neg (by omega)]
  · rw [if_neg h1, if_neg (by omega)]

example : rollingVariance [some 1, some 2, none, some (6 : ℚ)] 3 1 1 = [none, none, some (1 / 2), some 8] := by decide +kernel

/-- **C38.**  The rolling variance is never negative, and zero exactly when the present values of the window coincide. -/
theorem C38_rolling_variance_nonneg (xs : List (Option K)) (w ddof mp i : Nat) (x : K) (h : (rollingVariance xs w ddof mp)[i]? = some (some x)) :
    0 ≤ x ∧ (x = 0 ↔ ∀ a ∈ ((xs.drop (i + 1 - w)).take w).filterMap id, ∀ b ∈ ((xs.drop (i + 1 - w)).take w).filterMap id, a = b) := by
  have hi : i < xs.length := by
    by_contra hc
    rw [List.getElem?_eq_none (by unfold rollingVariance rolling; rw [length_tabulate]; omega)] at h
    cases h
  rw [C38_rolling_variance_exact xs w ddof mp i hi] at h
  injection h with h
  simp only at h
  generalize ((xs.drop (i + 1 - w)).take w).filterMap id = v at h ⊢
  split at h
  · rename_i hc
    injection h with h
    rw [← h]
    unfold twoPassVar
    have hd : (0 : K) < (v.length : K) - (ddof : K) := by
      have : (ddof : K) < (v.length : K) := by exact_mod_cast hc.2.2
      linarith
    have hn0 : (v.length : K) ≠ 0 := by exact_mod_cast (by omega : v.length ≠ 0)
    refine ⟨div_nonneg (sum_map_nonneg _ _ (fun x _ => sq_nonneg _)) hd.le, ?_⟩
    rw [div_eq_zero_iff, or_iff_left (ne_of_gt hd)]
    constructor
    · intro hz
      have key : ∀ (l : List K) (c : K), (l.map (fun x => (x - c) ^ 2)).sum = 0 → ∀ a ∈ l, a = c := by
        intro l c
        induction l with
        | nil => intro _ a ha; cases ha
        | cons b t ih =>
          simp only [List.map_cons, List.sum_cons]
          intro hs a ha
          have p1 := sq_nonneg (b - c)
          have p2 : 0 ≤ (t.map (fun x => (x - c) ^ 2)).sum := sum_map_nonneg _ _ (fun x _ => sq_nonneg _)
          rcases List.mem_cons.mp ha with rfl | ha
          · have : (a - c) ^ 2 = 0 := by linarith
            have := pow_eq_zero_iff (two_ne_zero) |>.mp this
            linarith
          · exact ih (by linarith) a ha
      intro a ha b hb
      rw [key v _ hz a ha, key v _ hz b hb]
    · intro hall
      cases v with
      | nil => rfl
      | cons a t =>
        have hsum : (a :: t).sum = ((a :: t).length : K) * a := by
          have : (a :: t) = List.replicate (a :: t).length a := by
            rw [List.eq_replicate_iff]
            exact ⟨rfl, fun b hb => hall b hb a List.mem_cons_self⟩
          rw [this, List.sum_replicate, List.length_replicate, nsmul_eq_mul]
        rw [hsum, mul_div_cancel_left₀ a hn0]
        apply List.sum_eq_zero
        intro y hy
        obtain ⟨b, hb, rfl⟩ := List.mem_map.mp hy
        rw [hall b hb a List.mem_cons_self]; ring
  · cases h

/-! ## Exponentially weighted standard deviation -/

/-- Indices of the observations of the prefix `0..t` that are present, with their weight and value. -/
def ewmObs (q : K) (y : List (Option K)) (t : Nat) : List (K × K) :=
  (List.range (t + 1)).filterMap (fun k => (y.getD (t - k) none).map (fun v => (q ^ k, v)))

/-- Sum of `f weight value` over weighted observations. -/
def obsSum (f : K → K → K) (o : List (K × K)) : K := (o.map (fun p => f p.1 p.2)).sum

theorem ewmObs_zero (q : K) (y : List (Option K)) : ewmObs q y 0 = ((y.getD 0 none).map (fun v => ((1 : K), v))).toList := by
  unfold ewmObs
  cases h : y.getD 0 none <;> simp [h, List.range_succ, -List.getD_eq_getElem?_getD]

theorem ewmObs_succ (q : K) (y : List (Option K)) (t : Nat) :
    ewmObs q y (t + 1) = ((y.getD (t + 1) none).map (fun v => ((1 : K), v))).toList ++ (ewmObs q y t).map (fun p => (q * p.1, p.2)) := by
  unfold ewmObs
  rw [List.range_succ_eq_map, List.filterMap_cons]
  have htail : (List.map Nat.succ (List.range (t + 1))).filterMap (fun k => (y.getD (t + 1 - k) none).map (fun v => (q ^ k, v))) =
      ((List.range (t + 1)).filterMap (fun k => (y.getD (t - k) none).map (fun v => (q ^ k, v)))).map (fun p => (q * p.1, p.2)) := by
    rw [List.filterMap_map, List.map_filterMap]
    congr 1
    funext k
    simp only [Function.comp_apply, Nat.succ_eq_add_one]
    rw [show t + 1 - (k + 1) = t - k by omega]
    cases y.getD (t - k) none with
    | none => rfl
    | some v => simp only [Option.map_some]; rw [pow_succ, mul_comm]
  rw [htail]
  simp only [Nat.sub_zero, pow_zero]
  cases y.getD (t + 1) none <;> rfl

theorem obsSum_append (f : K → K → K) (a b : List (K × K)) : obsSum f (a ++ b) = obsSum f a + obsSum f b := by
  unfold obsSum; rw [List.map_append, List.sum_append]

theorem obsSum_scale (f : K → K → K) (q c : K) (hf : ∀ w v, f (q * w) v = c * f w v) (a : List (K × K)) :
    obsSum f (a.map (fun p => (q * p.1, p.2))) = c * obsSum f a := by
  unfold obsSum
  rw [List.map_map, ← List.sum_map_mul_left]
  congr 1
  apply List.map_congr_left
  intro p _
  exact hf _ _

theorem ewmsState_eq (y : List (Option K)) (q : K) (t : Nat) :
    ewmsState y q (t + 1) = ⟨obsSum (fun w _ => w) (ewmObs q y t), obsSum (fun w _ => w ^ 2) (ewmObs q y t),
      obsSum (fun w v => w * v) (ewmObs q y t), obsSum (fun w v => w * v ^ 2) (ewmObs q y t)⟩ := by
  induction t with
  | zero =>
    rw [ewmsState, ewmsState, ewmObs_zero]
    cases y.getD 0 none <;> simp [validWeight, orZero, sqOrZero, obsSum]
  | succ t ih =>
    rw [ewmsState, ih, ewmObs_succ]
    simp only [obsSum_append]
    rw [obsSum_scale (fun w _ => w) q q (fun _ _ => rfl), obsSum_scale (fun w _ => w ^ 2) q (q ^ 2) (fun w v => by ring),
      obsSum_scale (fun w v => w * v) q q (fun w v => by ring), obsSum_scale (fun w v => w * v ^ 2) q q (fun w v => by ring)]
    cases y.getD (t + 1) none with
    | none => simp [validWeight, orZero, sqOrZero, obsSum]
    | some v =>
      simp only [validWeight, orZero, sqOrZero, obsSum, Option.map_some, Option.toList_some, List.map_cons, List.map_nil, List.sum_cons, List.sum_nil,
        one_pow, one_mul, add_zero]
      congr 1 <;> ring

/-- The unbiased weighted variance `Σ w (v - mean)² / (Σw - Σw²/Σw)`. -/
def weightedVar (o : List (K × K)) : K :=
  obsSum (fun w v => w * (v - obsSum (fun w v => w * v) o / obsSum (fun w _ => w) o) ^ 2) o /
    (obsSum (fun w _ => w) o - obsSum (fun w _ => w ^ 2) o / obsSum (fun w _ => w) o)

theorem obsSum_dev (o : List (K × K)) (c : K) : obsSum (fun w v => w * (v - c) ^ 2) o =
    obsSum (fun w v => w * v ^ 2) o - 2 * c * obsSum (fun w v => w * v) o + c ^ 2 * obsSum (fun w _ => w) o := by
  unfold obsSum
  induction o with
  | nil => simp
  | cons a t ih => simp only [List.map_cons, List.sum_cons]; rw [ih]; ring

theorem obsSum_nonneg (f : K → K → K) (o : List (K × K)) (h : ∀ p ∈ o, 0 ≤ f p.1 p.2) : 0 ≤ obsSum f o := sum_map_nonneg _ _ h

theorem weightedVar_eq (o : List (K × K)) (hsw : obsSum (fun w _ => w) o ≠ 0) :
    (obsSum (fun w v => w * v ^ 2) o / obsSum (fun w _ => w) o - (obsSum (fun w v => w * v) o / obsSum (fun w _ => w) o) ^ 2) *
      obsSum (fun w _ => w) o / (obsSum (fun w _ => w) o - obsSum (fun w _ => w ^ 2) o / obsSum (fun w _ => w) o) = weightedVar o := by
  unfold weightedVar
  rw [obsSum_dev]
  congr 1
  field_simp
  ring

theorem ewmObs_weights_nonneg (q : K) (hq : 0 ≤ q) (y : List (Option K)) (t : Nat) : ∀ p ∈ ewmObs q y t, 0 ≤ p.1 := by
  intro p hp
  unfold ewmObs at hp
  obtain ⟨k, -, hk⟩ := List.mem_filterMap.mp hp
  cases hv : y.getD (t - k) none with
  | none => rw [hv] at hk; cases hk
  | some v =>
    rw [hv] at hk
    simp only [Option.map_some, Option.some.injEq] at hk
    rw [← hk]
    exact pow_nonneg hq k

/-- **C38.**  For spans above 1 the exponentially weighted deviation is the square root of the unbiased weighted variance of the observations
present so far, with weights `(1-a)^age`; NaN while there are none, or while the bias correction is not positive.  The guard `max(·, 0)` never
acts. -/
theorem C38_ewms_exact (sqrt : K → K) (y : List (Option K)) (span t : Nat) (hs : 1 < span) (ht : t < y.length) :
    (ewms sqrt y span)[t]? = some (
      let o := ewmObs (1 - 2 / ((span : K) + 1)) y t
      if 0 < obsSum (fun w _ => w) o ∧ 0 < obsSum (fun w _ => w) o - obsSum (fun w _ => w ^ 2) o / obsSum (fun w _ => w) o then
        some (sqrt (weightedVar o)) else none) ∧
    0 ≤ obsSum (fun w v => w * (v - obsSum (fun w v => w * v) (ewmObs (1 - 2 / ((span : K) + 1)) y t) /
      obsSum (fun w _ => w) (ewmObs (1 - 2 / ((span : K) + 1)) y t)) ^ 2) (ewmObs (1 - 2 / ((span : K) + 1)) y t) := by
  have hspan : (2 : K) ≤ (span : K) := by exact_mod_cast hs
  have hq : (0 : K) ≤ 1 - 2 / ((span : K) + 1) := by
    rw [sub_nonneg, div_le_one (by linarith)]; linarith
  have hw := ewmObs_weights_nonneg _ hq y t
  have hnn : 0 ≤ obsSum (fun w v => w * (v - obsSum (fun w v => w * v) (ewmObs (1 - 2 / ((span : K) + 1)) y t) /
      obsSum (fun w _ => w) (ewmObs (1 - 2 / ((span : K) + 1)) y t)) ^ 2) (ewmObs (1 - 2 / ((span : K) + 1)) y t) :=
    obsSum_nonneg _ _ (fun p hp => mul_nonneg (hw p hp) (sq_nonneg _))
  refine ⟨?_, hnn⟩
  unfold ewms
  rw [if_neg (by omega)]
  simp only
  rw [tabulate_get?, if_pos ht, ewmsState_eq]
  unfold ewmVal
  simp only
  generalize ewmObs (1 - 2 / ((span : K) + 1)) y t = o at *
  congr 1
  by_cases h1 : obsSum (fun w _ => w) o > 0
  · by_cases h2 : obsSum (fun w _ => w) o - obsSum (fun w _ => w ^ 2) o / obsSum (fun w _ => w) o > 0
    · rw [if_pos h1, if_pos h2, if_pos ⟨h1, h2⟩, weightedVar_eq o (ne_of_gt h1), max_eq_left]
      exact div_nonneg hnn h2.le
    · rw [if_pos h1, if_neg h2, if_neg (fun h => h2 h.2)]
  · rw [if_neg h1, if_neg (fun h => h1 h.1)]

example : ewms (fun x => x) [some 1, some (3 : ℚ)] 3 = [none, some 2] := by decide +kernel

/-- **C38.**  Spans up to 1 give NaN everywhere. -/
theorem C38_ewms_short_span (sqrt : K → K) (y : List (Option K)) (span t : Nat) (hs : span ≤ 1) (ht : t < y.length) :
    (ewms sqrt y span)[t]? = some none := by
  unfold ewms
  rw [if_pos hs, tabulate_get?, if_pos ht]

example : ewms id ([some 1, some 2] : List (Option ℚ)) 1 = [none, none] := by decide +kernel

/-! ## Variance ratio -/

/-- **C38.**  The variance ratio is `4 var(1-bar) / var(4-bar)`; when the four-bar variance is four times the one-bar variance, as for a random walk, it
is 1, not the documented 0.25. -/
theorem C38_variance_ratio_random_walk (v : K) (hv : 0 < v) : vrVal (some v) (some (4 * v)) = some 1 ∧ (1 : K) ≠ 1 / 4 := by
  constructor
  · unfold vrVal
    simp only
    rw [if_pos (by linarith), mul_div_cancel_left₀ v (by norm_num : (4 : K) ≠ 0), div_self (ne_of_gt hv)]
  · norm_num

example : (0 : ℚ) < 3 ∧ vrVal (some (3 : ℚ)) (some 12) = some 1 := by decide +kernel

/-- **C38.**  The ratio is below its random-walk value 1 exactly when four-bar returns vary more than four times as much as one-bar returns, that is
when successive returns go the same way (`c` is the sum of their covariances): low values mean trends, high values reversion. -/
theorem C38_variance_ratio_direction (v c : K) (h : 0 < 4 * v + c) :
    ∃ x, vrVal (some v) (some (4 * v + c)) = some x ∧ (x < 1 ↔ 0 < c) ∧ (1 < x ↔ c < 0) := by
  refine ⟨v / ((4 * v + c) / 4), ?_, ?_, ?_⟩
  · unfold vrVal
    simp only
    rw [if_pos h]
  · rw [div_lt_one (by linarith)]
    constructor <;> intro <;> linarith
  · rw [one_lt_div (by linarith)]
    constructor <;> intro <;> linarith

example : (0 : ℚ) < 4 * 3 + 12 ∧ vrVal (some (3 : ℚ)) (some (4 * 3 + 12)) = some (1 / 2) := by decide +kernel

/-- **C38 (violation).**  The documentation has it the other way round ("mean-reversion (<0.25) or momentum/trending (>0.25)"): prices that double
for five bars and then halve for four give 2/5, prices that go up and down every bar give 1304/65. -/
theorem C38_variance_ratio_reversed :
    (varianceRatio (fun x => x) false [some (1 : ℚ), some 2, some 4, some 8, some 16, some 32, some 16, some 8, some 4, some 2] 6 1).getD 9 none = some (2 / 5) ∧
    (varianceRatio (fun x => x) false [some (1 : ℚ), some 2, some 1, some 2, some 1, some 2, some 1, some 3, some 1, some 2] 6 1).getD 9 none = some (1304 / 65) := by
  decide +kernel

/-- **C38.**  The ratio at each position: from the two-pass variances of the present one-bar and four-bar returns of the window. -/
theorem C38_variance_ratio_formula (log : K → K) (isLog : Bool) (price : List (Option K)) (w ddof i : Nat) (hn : w + 4 ≤ price.length) (hi : i < price.length) (hw : w ≤ i + 1) :
    let r1 := tabulate price.length (vrReturn log isLog price)
    let r4 := tabulate price.length (vrReturn4 r1)
    let v1 := ((r1.drop (i + 1 - w)).take w).filterMap id
    let v4 := ((r4.drop (i + 1 - w)).take w).filterMap id
    (varianceRatio log isLog price w ddof)[i]? = some (
      if 1 ≤ v1.length ∧ ddof < v1.length ∧ 1 ≤ v4.length ∧ ddof < v4.length ∧ 0 < twoPassVar ddof v4 then
        some (4 * twoPassVar ddof v1 / twoPassVar ddof v4) else none) := by
  intro r1 r4 v1 v4
  unfold varianceRatio
  rw [if_neg (by omega)]
  simp only
  rw [tabulate_get?, if_pos hi]
  have e1 := C38_rolling_variance_exact r1 w ddof 1 i (by rw [length_tabulate]; exact hi)
  have e4 := C38_rolling_variance_exact r4 w ddof 1 i (by rw [length_tabulate]; exact hi)
  have f1 : (rollingVariance r1 w ddof 1).getD i none = if w ≤ i + 1 ∧ 1 ≤ v1.length ∧ ddof < v1.length then some (twoPassVar ddof v1) else none := by
    rw [List.getD_eq_getElem?_getD, e1]; rfl
  have f4 : (rollingVariance r4 w ddof 1).getD i none = if w ≤ i + 1 ∧ 1 ≤ v4.length ∧ ddof < v4.length then some (twoPassVar ddof v4) else none := by
    rw [List.getD_eq_getElem?_getD, e4]; rfl
  rw [f1, f4]
  congr 1
  by_cases a : 1 ≤ v1.length ∧ ddof < v1.length
  · rw [if_pos ⟨hw, a⟩]
    by_cases b : 1 ≤ v4.length ∧ ddof < v4.length
    · rw [if_pos ⟨hw, b⟩]
      unfold vrVal
      simp only
      by_cases c : twoPassVar ddof v4 > 0
      · rw [if_pos c, if_pos ⟨a.1, a.2, b.1, b.2, c⟩]
        congr 1
        have := ne_of_gt c
        field_simp
      · rw [if_neg c, if_neg (fun h => c h.2.2.2.2)]
    · rw [if_neg (fun h => b h.2), if_neg (fun h => b ⟨h.2.2.1, h.2.2.2.1⟩)]; rfl
  · rw [if_neg (fun h => a h.2)]
    symm
    rw [if_neg (fun h => a ⟨h.1, h.2.1⟩)]
    symm
    unfold vrVal; rfl

example : let price : List (Option ℚ) := [some 1, some 2, some 4, some 5, some 4, some 3, some 6, some 8, some 7, some 9]
    4 + 4 ≤ price.length ∧ 4 ≤ 9 + 1 ∧ (varianceRatio id false price 4 1)[9]? ≠ some none := by decide +kernel

/-- **C38.**  One-bar returns: NaN at the start or next to missing or non-positive prices. -/
theorem C38_variance_ratio_returns (log : K → K) (price : List (Option K)) (i : Nat) (a b : K) (h1 : 1 ≤ i) (ha : price.getD i none = some a)
    (hb : price.getD (i - 1) none = some b) (hpa : 0 < a) (hpb : 0 < b) :
    vrReturn log false price i = some (a / b - 1) ∧ vrReturn log true price i = some (log (a / b)) := by
  have h0 : i ≠ 0 := by omega
  constructor
  · simp [vrReturn, h0, ha, hb, not_le.mpr hpb, -List.getD_eq_getElem?_getD]
  · simp [vrReturn, h0, ha, hb, not_le.mpr hpb, not_le.mpr hpa, -List.getD_eq_getElem?_getD]

example : vrReturn id false ([some 2, some 3] : List (Option ℚ)) 1 = some (1 / 2) := by decide +kernel

/-- **C38.**  Four-bar returns are the (overlapping) sums of four consecutive one-bar returns, from index 4 on. -/
theorem C38_variance_ratio_four_bar (r : List (Option K)) (i : Nat) (x : K) :
    vrReturn4 r i = some x ↔ 4 ≤ i ∧ ∃ a b c d, r.getD i none = some a ∧ r.getD (i - 1) none = some b ∧ r.getD (i - 2) none = some c ∧
      r.getD (i - 3) none = some d ∧ x = a + b + c + d := by
  unfold vrReturn4
  by_cases h : i < 4
  · rw [if_pos h]
    constructor
    · intro e; cases e
    · rintro ⟨e, -⟩; omega
  rw [if_neg h]
  cases r.getD i none <;> cases r.getD (i - 1) none <;> cases r.getD (i - 2) none <;> cases r.getD (i - 3) none <;> simp
  constructor
  · rintro rfl; exact ⟨by omega, rfl⟩
  · rintro ⟨-, rfl⟩; rfl

example : vrReturn4 [none, some 1, some 2, some 3, some (4 : ℚ)] 4 = some 10 := by decide +kernel

example : vrReturn (fun x => x) false [some 2, some (3 : ℚ)] 1 = some (1 / 2) := by decide +kernel

/-! ## True range -/

/-- **C38.**  With low ≤ high, the true range is `max(high, previous close) - min(low, previous close)`, so it is non-negative and at least the bar's own
range. -/
theorem C38_true_range_exact (high low close tr : List (Option K)) (i : Nat) (h l c : K) (ht : trueRange high low close = .ok tr) (hi : i < high.length)
    (h1 : 1 ≤ i) (hh : high.getD i none = some h) (hl : low.getD i none = some l) (hc : close.getD (i - 1) none = some c) (hle : l ≤ h) :
    tr[i]? = some (some (max h c - min l c)) ∧ 0 ≤ max h c - min l c ∧ h - l ≤ max h c - min l c := by
  unfold trueRange at ht
  split at ht
  · injection ht with ht
    subst ht
    rw [tabulate_get?, if_pos hi]
    unfold trueRangeAt
    rw [if_neg (by omega), hh, hl, hc]
    simp only
    have b1 := le_max_left h c
    have b2 := min_le_left l c
    refine ⟨?_, by linarith, by linarith⟩
    congr 2
    rcases le_total h c with a | a <;> rcases le_total l c with b | b
    · rw [max_eq_right a, min_eq_left b, abs_of_nonpos (by linarith : h - c ≤ 0), abs_of_nonpos (by linarith : l - c ≤ 0)]
      rw [max_eq_right]
      · ring
      · apply max_le <;> linarith
    · have : l = c := by linarith
      have : h = c := by linarith
      subst_vars; simp
    · rw [max_eq_left a, min_eq_left b, abs_of_nonneg (by linarith : 0 ≤ h - c), abs_of_nonpos (by linarith : l - c ≤ 0)]
      rw [max_eq_left, max_eq_left]
      · linarith
      · rw [max_eq_left] <;> linarith
    · rw [max_eq_left a, min_eq_right b, abs_of_nonneg (by linarith : 0 ≤ h - c), abs_of_nonneg (by linarith : 0 ≤ l - c)]
      rw [max_eq_left, max_eq_right]
      · linarith
      · rw [max_eq_right] <;> linarith
  · cases ht

example : trueRange [some (3 : ℚ), some 5] [some 1, some 4] [some 2, some 4] = .ok [some 2, some 3] := by decide +kernel

/-- **C38.**  The first true range is the bar's own range; a missing input makes it NaN; different lengths are rejected. -/
theorem C38_true_range_edges (high low close : List (Option K)) :
    (∀ tr h l, trueRange high low close = .ok tr → high.getD 0 none = some h → low.getD 0 none = some l → 0 < high.length → tr[0]? = some (some (h - l))) ∧
    (∀ tr i, trueRange high low close = .ok tr → i < high.length → 1 ≤ i →
      (high.getD i none = none ∨ low.getD i none = none ∨ close.getD (i - 1) none = none) → tr[i]? = some none) ∧
    (¬ (high.length = low.length ∧ low.length = close.length) → ∃ e, trueRange high low close = .error e) := by
  unfold trueRange
  refine ⟨?_, ?_, ?_⟩
  · intro tr h l ht hh hl hpos
    split at ht
    · injection ht with ht
      subst ht
      rw [tabulate_get?, if_pos hpos]
      unfold trueRangeAt
      rw [if_pos rfl, hh, hl]
    · cases ht
  · intro tr i ht hi h1 hm
    split at ht
    · injection ht with ht
      subst ht
      rw [tabulate_get?, if_pos hi]
      unfold trueRangeAt
      rw [if_neg (by omega)]
      rcases hm with hm | hm | hm
      · rw [hm]
      · rw [hm]; cases high.getD i none <;> rfl
      · rw [hm]; cases high.getD i none <;> cases low.getD i none <;> rfl
    · cases ht
  · intro h
    exact ⟨_, by rw [if_neg h]⟩

example : trueRange [some 3, some (5 : ℚ)] [some 1, some 4] [some 2, some 4] = .ok [some 2, some 3] := by decide +kernel

end FinML
