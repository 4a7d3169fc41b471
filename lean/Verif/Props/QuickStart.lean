/-
C149: the volatility features of the quick start (jump proportion, volatility ratios).
-/
import Verif.Model.QuickStart
import Verif.Props.PandasRolling
import Verif.Props.Volatility
import Verif.Props.NanIndicators
import Verif.Props.FeatureAlgebra
import Mathlib.Analysis.Real.Sqrt
import Mathlib.Tactic

set_option linter.unusedSectionVars false

namespace FinML

variable {K : Type} [Field K] [LinearOrder K] [IsStrictOrderedRing K]

theorem getD_of_get? {α : Type} (l : List (Option α)) (i : Nat) (v : Option α) (h : l[i]? = some v) : l.getD i none = v := by
  rw [List.getD_eq_getElem?_getD, h]; rfl

/-- A window whose returns are all present. -/
theorem drop_take_present (xs : List (Option K)) (s w : Nat) (r : Nat → K) (h : ∀ j, s ≤ j → j < s + w → xs[j]? = some (some (r j))) :
    ((xs.drop s).take w) = (List.range' s w).map (fun j => some (r j)) := by
  apply List.ext_getElem?
  intro j
  rw [List.getElem?_take, List.getElem?_map]
  by_cases hj : j < w
  · rw [if_pos hj, List.getElem?_drop, h (s + j) (by omega) (by omega), List.getElem?_range' hj]
    simp
  · rw [if_neg hj, List.getElem?_eq_none (by simp; omega)]; rfl

theorem realized_present (sqrt : K → K) (w i : Nat) (xs : List (Option K)) (hi : i < xs.length) (h2 : 2 ≤ w) (hw : w ≤ i + 1) (r : Nat → K)
    (h : ∀ j, i + 1 - w ≤ j → j ≤ i → xs[j]? = some (some (r j))) :
    (realizedVol sqrt xs w false).getD i none =
      some (sqrt (((List.range' (i + 1 - w) w).map (fun j => r j ^ 2)).sum / w)) := by
  apply getD_of_get?
  rw [C56_realized_vol sqrt xs w i false hi, drop_take_present xs (i + 1 - w) w r (fun j h1 h2 => h j h1 (by omega))]
  have e : ((List.range' (i + 1 - w) w).map (fun j => some (r j))).filterMap id = (List.range' (i + 1 - w) w).map r := by
    rw [List.filterMap_map]
    simp [Function.comp_def]
  simp only [e, List.length_map, List.length_range']
  rw [if_pos ⟨hw, h2⟩]
  simp [List.map_map, Function.comp_def]

theorem jumpPropRow_fin (eps rv bv : K) (h : rv + eps ≠ 0) :
    jumpPropRow eps (.fin rv) (.fin bv) = .fin (max (rv - bv) 0 / (rv + eps)) := by
  unfold jumpPropRow
  rw [(C80_finite rv bv).2.1, (C80_clip 0 0 (rv - bv)).2.1, (C80_finite rv eps).1, (C80_finite _ _).2.2.2.1 h]

/-- **C149.** With `w + 1` returns present the jump proportion is the clipped difference of the root mean square of the last `w` returns
and `c` times the sum of the `w` products of neighbouring absolute returns, over the root mean square plus `eps`. -/
theorem C149_jump_value (sqrt : K → K) (c eps : K) (w i : Nat) (xs : List (Option K)) (hi : i < xs.length) (h2 : 2 ≤ w) (hw : w ≤ i)
    (r : Nat → K) (h : ∀ j, i - w ≤ j → j ≤ i → xs[j]? = some (some (r j)))
    (rv bv : K) (hrv : rv = sqrt (((List.range' (i - w) w).map (fun j => r (j + 1) ^ 2)).sum / w))
    (hbv : bv = c * ((List.range' (i - w) w).map (fun j => |r (j + 1)| * |r j|)).sum) (hne : rv + eps ≠ 0) :
    (jumpProp sqrt c eps w xs)[i]? = some (.fin (max (rv - bv) 0 / (rv + eps))) := by
  unfold jumpProp
  rw [tabulate_get?, if_pos hi, getD_of_get? _ _ _ (C70_bipower c w i xs hi hw r h),
    realized_present sqrt w i xs hi h2 (by omega) r (fun j a b => h j (by omega) b), ← hbv]
  have e : ((List.range' (i + 1 - w) w).map (fun j => r j ^ 2)) = ((List.range' (i - w) w).map (fun j => r (j + 1) ^ 2)) := by
    rw [show i + 1 - w = (i - w) + 1 by omega]
    rw [List.range'_eq_map_range, List.range'_eq_map_range, List.map_map, List.map_map]
    apply List.map_congr_left
    intro j _
    simp only [Function.comp]
    rw [show i - w + 1 + j = i - w + j + 1 by omega]
  rw [e, ← hrv]
  congr 1
  exact jumpPropRow_fin eps rv bv hne

/-- **C149.** A jump proportion is missing or lies in `[0, 1)`; it is missing exactly before bar `w` and while one of the `w + 1` returns is
missing. -/
theorem C149_jump_range (sqrt : K → K) (hs : ∀ v, 0 ≤ v → 0 ≤ sqrt v) (c eps : K) (hc : 0 ≤ c) (he : 0 < eps) (w i : Nat)
    (xs : List (Option K)) (hi : i < xs.length) (h2 : 2 ≤ w) :
    ((jumpProp sqrt c eps w xs)[i]? = some .nan ∧ (i < w ∨ ∃ j, i - w ≤ j ∧ j ≤ i ∧ xs[j]? = some none)) ∨
    ((w ≤ i ∧ ∀ j, i - w ≤ j → j ≤ i → xs[j]? ≠ some none) ∧
      ∃ y, (jumpProp sqrt c eps w xs)[i]? = some (.fin y) ∧ 0 ≤ y ∧ y < 1) := by
  by_cases hm : i < w ∨ ∃ j, i - w ≤ j ∧ j ≤ i ∧ xs[j]? = some none
  · left
    refine ⟨?_, hm⟩
    unfold jumpProp
    rw [tabulate_get?, if_pos hi, getD_of_get? _ _ _ (C70_bipower_missing c w i xs hi hm)]
    congr 1
    unfold jumpPropRow
    have : ∀ a : Ext K, a.sub (Ext.ofOption none) = .nan := by intro a; cases a <;> rfl
    rw [this, (C80_clip 0 0 (0 : K)).2.2.2.2]
    cases (Ext.ofOption ((realizedVol sqrt xs w false).getD i none)).add (.fin eps) <;> rfl
  · right
    push Not at hm
    refine ⟨⟨hm.1, hm.2⟩, ?_⟩
    have h : ∀ j, i - w ≤ j → j ≤ i → xs[j]? = some (some ((xs.getD j none).getD 0)) := by
      intro j h1 h2
      have := hm.2 j h1 h2
      rw [List.getD_eq_getElem?_getD]
      cases hx : xs[j]? with
      | none => rw [List.getElem?_eq_none_iff] at hx; omega
      | some o =>
        cases o with
        | none => exact absurd hx this
        | some v => rfl
    have hrv0 : 0 ≤ sqrt (((List.range' (i - w) w).map (fun j => ((xs.getD (j + 1) none).getD 0) ^ 2)).sum / w) := by
      apply hs
      apply div_nonneg _ (Nat.cast_nonneg _)
      apply List.sum_nonneg
      intro x hx
      obtain ⟨j, _, rfl⟩ := List.mem_map.mp hx
      positivity
    have hbv0 : 0 ≤ c * ((List.range' (i - w) w).map (fun j => |(xs.getD (j + 1) none).getD 0| * |(xs.getD j none).getD 0|)).sum := by
      apply mul_nonneg hc
      apply List.sum_nonneg
      intro x hx
      obtain ⟨j, _, rfl⟩ := List.mem_map.mp hx
      positivity
    refine ⟨_, C149_jump_value sqrt c eps w i xs hi h2 hm.1 _ h _ _ rfl rfl (by linarith), ?_, ?_⟩
    · exact div_nonneg (le_max_right _ _) (by linarith)
    · rw [div_lt_one (by linarith), max_lt_iff]
      constructor <;> linarith

theorem sum_le_of_bound (r : Nat → K) (d : K) (s w : Nat) (h : ∀ j, s ≤ j → j < s + w → |r j| ≤ d) :
    ((List.range' s w).map (fun j => |r (j + 1)| * |r j|)).sum ≤ d * ((List.range' s w).map (fun j => |r (j + 1)|)).sum := by
  rw [← List.sum_map_mul_left]
  apply List.sum_le_sum
  intro j hj
  rw [List.mem_range'_1] at hj
  rw [mul_comm]
  exact mul_le_mul_of_nonneg_right (h j hj.1 hj.2) (abs_nonneg _)

theorem sum_abs_le_rms (r : Nat → K) (s w : Nat) (rv : K) (h0 : 0 ≤ rv) (hw : 0 < w)
    (h : rv ^ 2 = ((List.range' s w).map (fun j => r (j + 1) ^ 2)).sum / w) :
    ((List.range' s w).map (fun j => |r (j + 1)|)).sum ≤ w * rv := by
  have hw' : (0 : K) < w := by exact_mod_cast hw
  have cs := sq_sum_le_length_mul ((List.range' s w).map (fun j => |r (j + 1)|))
  rw [List.map_map, List.length_map, List.length_range'] at cs
  have e : ((List.range' s w).map ((fun x => x ^ 2) ∘ (fun j => |r (j + 1)|))) = (List.range' s w).map (fun j => r (j + 1) ^ 2) :=
    List.map_congr_left (fun j _ => by simp [sq_abs])
  rw [e] at cs
  rw [eq_div_iff hw'.ne'] at h
  rw [← h] at cs
  exact abs_le_of_sq_le_sq' (by nlinarith) (by positivity) |>.2

/-- **C149, violation.** The jump proportion subtracts a sum of products of returns from a deviation of returns.  For small returns the
first is negligible: if none of the returns exceeds `d` in size, the proportion is at least `(1 - w * c * d) * rv / (rv + eps)`, whether or
not the returns contain a jump. -/
theorem C149_jump_small_returns (sqrt : K → K) (hs : ∀ v, 0 ≤ v → 0 ≤ sqrt v ∧ sqrt v ^ 2 = v) (c eps d : K) (hc : 0 ≤ c) (he : 0 < eps)
    (w i : Nat) (xs : List (Option K)) (hi : i < xs.length) (h2 : 2 ≤ w) (hw : w ≤ i)
    (r : Nat → K) (h : ∀ j, i - w ≤ j → j ≤ i → xs[j]? = some (some (r j))) (hd : ∀ j, i - w ≤ j → j ≤ i → |r j| ≤ d) :
    ∃ rv y, (realizedVol sqrt xs w false)[i]? = some (some rv) ∧ (jumpProp sqrt c eps w xs)[i]? = some (.fin y) ∧
      (1 - w * c * d) * (rv / (rv + eps)) ≤ y := by
  have hsum : 0 ≤ ((List.range' (i - w) w).map (fun j => r (j + 1) ^ 2)).sum / (w : K) := by
    apply div_nonneg _ (Nat.cast_nonneg _)
    apply List.sum_nonneg
    intro x hx
    obtain ⟨j, _, rfl⟩ := List.mem_map.mp hx
    positivity
  obtain ⟨p1, p2⟩ := hs _ hsum
  have hrv : (realizedVol sqrt xs w false)[i]? =
      some (some (sqrt (((List.range' (i - w) w).map (fun j => r (j + 1) ^ 2)).sum / w))) := by
    have q := realized_present sqrt w i xs hi h2 (by omega) r (fun j a b => h j (by omega) b)
    have e : ((List.range' (i + 1 - w) w).map (fun j => r j ^ 2)) = ((List.range' (i - w) w).map (fun j => r (j + 1) ^ 2)) := by
      rw [show i + 1 - w = (i - w) + 1 by omega]
      rw [List.range'_eq_map_range, List.range'_eq_map_range, List.map_map, List.map_map]
      apply List.map_congr_left
      intro j _
      simp only [Function.comp]
      rw [show i - w + 1 + j = i - w + j + 1 by omega]
    rw [e] at q
    rw [List.getD_eq_getElem?_getD] at q
    cases hx : (realizedVol sqrt xs w false)[i]? with
    | none => rw [hx] at q; simp at q
    | some o => rw [hx] at q; simp at q; rw [q]
  have hj := C149_jump_value sqrt c eps w i xs hi h2 hw r h _ _ rfl rfl (by linarith)
  refine ⟨_, _, hrv, hj, ?_⟩
  generalize hS : sqrt (((List.range' (i - w) w).map (fun j => r (j + 1) ^ 2)).sum / w) = rv at *
  have b1 := sum_le_of_bound r d (i - w) w (fun j a b => hd j a (by omega))
  have b2 := sum_abs_le_rms r (i - w) w rv p1 (by omega) p2
  have d0 : 0 ≤ d := (abs_nonneg _).trans (hd i (by omega) le_rfl)
  rw [← mul_div_assoc]
  apply div_le_div_of_nonneg_right _ (by linarith : (0 : K) ≤ rv + eps)
  refine le_trans ?_ (le_max_left _ _)
  have b3 := b1.trans (mul_le_mul_of_nonneg_left b2 d0)
  have b4 := mul_le_mul_of_nonneg_left b3 hc
  nlinarith

/-- **C149, violation.** Returns of constant size `d` have no jump.  The proportion is `(1 - w * c * d) * d / (d + eps)` below
`d = 1 / (w * c)` and zero from there on, so it measures the size of the returns; with variances on both sides (`w` times the squared
deviation against `c ^ 2` times the products, `c ^ 2 = pi / 2`) the difference is never positive. -/
theorem C149_jump_constant_size (sqrt : K → K) (hs : ∀ v, 0 ≤ v → 0 ≤ sqrt v ∧ sqrt v ^ 2 = v) (c eps d : K) (he : 0 < eps) (hd : 0 ≤ d)
    (w i : Nat) (xs : List (Option K)) (hi : i < xs.length) (h2 : 2 ≤ w) (hw : w ≤ i)
    (r : Nat → K) (h : ∀ j, i - w ≤ j → j ≤ i → xs[j]? = some (some (r j))) (hr : ∀ j, i - w ≤ j → j ≤ i → |r j| = d) :
    (jumpProp sqrt c eps w xs)[i]? = some (.fin (max (1 - w * c * d) 0 * (d / (d + eps)))) ∧
    (1 ≤ c ^ 2 → ((List.range' (i - w) w).map (fun j => r (j + 1) ^ 2)).sum -
      c ^ 2 * ((List.range' (i - w) w).map (fun j => |r (j + 1)| * |r j|)).sum ≤ 0) := by
  have hw' : (0 : K) < w := by exact_mod_cast (by omega : 0 < w)
  have s1 : ((List.range' (i - w) w).map (fun j => r (j + 1) ^ 2)).sum = w * d ^ 2 := by
    rw [List.map_congr_left (g := fun _ => d ^ 2) (fun j hj => by
      rw [List.mem_range'_1] at hj
      rw [← sq_abs, hr (j + 1) (by omega) (by omega)])]
    simp
  have s2 : ((List.range' (i - w) w).map (fun j => |r (j + 1)| * |r j|)).sum = w * d ^ 2 := by
    rw [List.map_congr_left (g := fun _ => d ^ 2) (fun j hj => by
      rw [List.mem_range'_1] at hj
      rw [hr (j + 1) (by omega) (by omega), hr j hj.1 (by omega), pow_two])]
    simp
  refine ⟨?_, fun hc => ?_⟩
  · have e1 : sqrt (((List.range' (i - w) w).map (fun j => r (j + 1) ^ 2)).sum / w) = d := by
      rw [s1, mul_div_cancel_left₀ _ hw'.ne']
      obtain ⟨a, b⟩ := hs (d ^ 2) (by positivity)
      exact (pow_left_inj₀ a hd (by norm_num)).mp b
    rw [C149_jump_value sqrt c eps w i xs hi h2 hw r h d _ e1.symm rfl (by linarith), s2]
    congr 2
    rw [← mul_div_assoc]
    congr 1
    rw [max_mul_of_nonneg _ _ hd]
    congr 1 <;> ring
  · rw [s1, s2]
    have : 0 ≤ (w : K) * d ^ 2 := by positivity
    nlinarith

/-- Returns of 0.1 % up and down, `c = 1.2533`: the jump proportion is above 0.98; returns of 10 %: zero. -/
example : (max (1 - 12 * (12533 / 10000) * (1 / 1000)) 0 : ℚ) * ((1 / 1000) / (1 / 1000 + 1 / 1000000000)) > 98 / 100 ∧
    (max (1 - 12 * (12533 / 10000) * (1 / 10)) 0 : ℚ) = 0 := by norm_num

example : ∀ v : ℝ, 0 ≤ v → 0 ≤ Real.sqrt v ∧ Real.sqrt v ^ 2 = v := fun v h => ⟨Real.sqrt_nonneg v, Real.sq_sqrt h⟩

/-- Real returns of a quarter up and down meet the hypotheses; the proportion is the half of `d / (d + eps)`. -/
example : (jumpProp Real.sqrt 1 (1 / 4) 2 [some (1 / 4), some (-1 / 4), some (1 / 4)])[2]? =
    some (.fin (max (1 - ((2 : Nat) : ℝ) * 1 * (1 / 4)) 0 * ((1 / 4) / (1 / 4 + 1 / 4)))) := by
  have hr : ∀ j, 2 - 2 ≤ j → j ≤ 2 → |(fun j : Nat => if j = 1 then (-1 / 4 : ℝ) else 1 / 4) j| = 1 / 4 := by
    intro j _ _
    dsimp only
    split <;> norm_num [abs_of_neg, abs_of_pos]
  refine (C149_jump_constant_size Real.sqrt (fun v h => ⟨Real.sqrt_nonneg v, Real.sq_sqrt h⟩) 1 (1 / 4) (1 / 4) (by norm_num) (by norm_num)
    2 2 _ (by simp) le_rfl le_rfl (fun j => if j = 1 then -1 / 4 else 1 / 4) ?_ hr).1
  intro j _ h
  interval_cases j <;> simp

/-! ### Ratios of realised volatilities -/

theorem sum_filterMap_sq_le (l m : List (Option K)) :
    ((m.filterMap id).map (fun x => x ^ 2)).sum ≤ (((l ++ m).filterMap id).map (fun x => x ^ 2)).sum := by
  rw [List.filterMap_append, List.map_append, List.sum_append]
  have : 0 ≤ ((l.filterMap id).map (fun x : K => x ^ 2)).sum := by
    apply List.sum_nonneg
    intro x hx
    obtain ⟨j, _, rfl⟩ := List.mem_map.mp hx
    positivity
  linarith

/-- **C149.** The volatility of the last `k` returns over that of the last `w ≥ k` (plus `eps`): when it has a value it is not negative and
its square is below the ratio of the numbers of valid returns in the two windows, hence below `w / 2`; with no missing return below
`w / k`. -/
theorem C149_ratio_bound (sqrt : K → K) (hs : ∀ v, 0 ≤ v → 0 ≤ sqrt v ∧ sqrt v ^ 2 = v) (eps : K) (he : 0 < eps) (k w i : Nat) (hk : k ≤ w)
    (xs : List (Option K)) (hi : i < xs.length) :
    ((volRatio sqrt eps k w xs)[i]? = some .nan ∧
      (i + 1 < w ∨ (((xs.drop (i + 1 - k)).take k).filterMap id).length ≤ 1)) ∨
    ∃ y n m, (volRatio sqrt eps k w xs)[i]? = some (.fin y) ∧ n = (((xs.drop (i + 1 - k)).take k).filterMap id).length ∧
      m = (((xs.drop (i + 1 - w)).take w).filterMap id).length ∧ w ≤ i + 1 ∧ 2 ≤ n ∧ n ≤ m ∧ m ≤ w ∧ 0 ≤ y ∧ y ^ 2 < (m : K) / n ∧ y ^ 2 < (w : K) / 2 := by
  have hdiv : ∀ a : Ext K, a.div .nan = .nan := by intro a; cases a <;> rfl
  have hdiv' : ∀ a : Ext K, Ext.div .nan a = .nan := by intro a; cases a <;> rfl
  unfold volRatio
  rw [tabulate_get?, if_pos hi, getD_of_get? _ _ _ (C56_realized_vol sqrt xs k i false hi),
    getD_of_get? _ _ _ (C56_realized_vol sqrt xs w i false hi)]
  simp only [Bool.false_eq_true, if_false]
  by_cases h1 : i + 1 < w
  · left
    refine ⟨?_, Or.inl h1⟩
    rw [if_neg (c := w ≤ i + 1 ∧ _) (by omega)]
    simp only [Ext.ofOption, Ext.add, hdiv]
  push Not at h1
  by_cases h3 : (((xs.drop (i + 1 - k)).take k).filterMap id).length ≤ 1
  · left
    refine ⟨?_, Or.inr h3⟩
    rw [if_neg (c := k ≤ i + 1 ∧ _) (by omega)]
    simp only [Ext.ofOption, hdiv']
  push Not at h3
  right
  have split : (xs.drop (i + 1 - w)).take w = (xs.drop (i + 1 - w)).take (w - k) ++ (xs.drop (i + 1 - k)).take k := by
    conv_lhs => rw [show w = (w - k) + k by omega, List.take_add]
    rw [List.drop_drop, show i + 1 - (w - k + k) = i + 1 - w by omega, show i + 1 - w + (w - k) = i + 1 - k by omega]
  have hS := sum_filterMap_sq_le ((xs.drop (i + 1 - w)).take (w - k)) ((xs.drop (i + 1 - k)).take k)
  have hlen : (((xs.drop (i + 1 - k)).take k).filterMap id).length ≤ (((xs.drop (i + 1 - w)).take w).filterMap id).length := by
    rw [split, List.filterMap_append, List.length_append]; omega
  have hlw : (((xs.drop (i + 1 - w)).take w).filterMap id).length ≤ w :=
    (List.length_filterMap_le _ _).trans (by rw [List.length_take]; omega)
  rw [← split] at hS
  rw [if_pos ⟨by omega, by omega⟩, if_pos ⟨h1, by omega⟩]
  have nn : ∀ l : List K, 0 ≤ (l.map (fun x : K => x ^ 2)).sum := by
    intro l
    apply List.sum_nonneg
    intro x hx
    obtain ⟨j, _, rfl⟩ := List.mem_map.mp hx
    positivity
  generalize ((xs.drop (i + 1 - k)).take k).filterMap id = u at *
  generalize ((xs.drop (i + 1 - w)).take w).filterMap id = v at *
  have hu : (0 : K) < u.length := by exact_mod_cast (by omega : 0 < u.length)
  have hv : (0 : K) < v.length := by exact_mod_cast (by omega : 0 < v.length)
  simp only [Ext.ofOption]
  obtain ⟨a1, a2⟩ := hs ((u.map (fun x : K => x ^ 2)).sum / u.length) (div_nonneg (nn u) hu.le)
  obtain ⟨b1, b2⟩ := hs ((v.map (fun x : K => x ^ 2)).sum / v.length) (div_nonneg (nn v) hv.le)
  generalize sqrt ((u.map (fun x : K => x ^ 2)).sum / u.length) = a at *
  generalize sqrt ((v.map (fun x : K => x ^ 2)).sum / v.length) = b at *
  have hb : 0 < b + eps := by linarith
  have key : (a / (b + eps)) ^ 2 < (v.length : K) / u.length := by
    rw [div_pow, div_lt_div_iff₀ (by positivity) hu, a2, div_mul_cancel₀ _ hu.ne']
    rw [eq_div_iff hv.ne'] at b2
    have : b ^ 2 < (b + eps) ^ 2 := by nlinarith
    calc _ ≤ _ := hS
      _ = b ^ 2 * v.length := b2.symm
      _ < (b + eps) ^ 2 * v.length := mul_lt_mul_of_pos_right this hv
      _ = _ := mul_comm _ _
  refine ⟨a / (b + eps), u.length, v.length, ?_, rfl, rfl, h1, by omega, hlen, hlw, div_nonneg a1 hb.le, key, key.trans_le ?_⟩
  · rw [(C80_finite b eps).1, (C80_finite _ _).2.2.2.1 hb.ne']
  · have h2 : (2 : K) ≤ u.length := by exact_mod_cast h3
    have h4 : (v.length : K) ≤ w := by exact_mod_cast hlw
    exact div_le_div₀ (Nat.cast_nonneg _) h4 (by norm_num) h2

/-- With a square root that is exact on the values met here. -/
example : volRatio (fun x : ℚ => if x = 16 then 4 else x) 1 2 3 [none, some 4, some 4, some (-4), none, some 4] =
    [.nan, .nan, .fin (4 / 5), .fin (4 / 5), .nan, .nan] := by decide +kernel

example : jumpProp (fun x : ℚ => if x = 1 / 16 then 1 / 4 else x) 1 (1 / 4) 2 [none, some (1 / 4), some (-1 / 4), some (1 / 4), none] =
    [.nan, .nan, .nan, .fin (1 / 4), .nan] := by decide +kernel

end FinML
