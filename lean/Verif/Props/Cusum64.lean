/-
C118: CUSUM events and CUSUM bars computed in float64 against the exact run with real logarithms.
-/
import Verif.Model.Float64Cusum
import Verif.Lemmas.Float64
import Mathlib.Analysis.SpecialFunctions.Log.Basic
import Mathlib.Tactic.Linarith
import Mathlib.Tactic.Ring
import Mathlib.Tactic.NormNum
import Mathlib.Tactic.FieldSimp
import Mathlib.Tactic.Positivity
import Mathlib.Tactic.IntervalCases
import Mathlib.Analysis.Complex.ExponentialBounds

set_option linter.unusedSectionVars false

namespace FinML

/-- What one step of a running sum can add to its error: `e` before the step, `eta` in the summand, `B` bounds the sum. -/
noncomputable def cusumErrStep (eta B e : ℝ) : ℝ := (1 + 1 / 2 ^ 53) * (e + eta) + B / 2 ^ 53

/-- One clamped addition under rounding. -/
theorem pos_step64 (p r e eta B : ℝ) (p64 r64 : ℚ) (hp : |(p64 : ℝ) - p| ≤ e) (hr : |(r64 : ℝ) - r| ≤ eta)
    (hB : max 0 (p + r) ≤ B) : |((max 0 (f64 (p64 + r64)) : ℚ) : ℝ) - max 0 (p + r)| ≤ cusumErrStep eta B e := by
  have hxy : |((p64 + r64 : ℚ) : ℝ) - (p + r)| ≤ e + eta := by
    push_cast
    calc |(p64 : ℝ) + r64 - (p + r)| = |((p64 : ℝ) - p) + ((r64 : ℝ) - r)| := by ring_nf
      _ ≤ _ := abs_add_le _ _
      _ ≤ e + eta := add_le_add hp hr
  obtain ⟨x, hx⟩ : ∃ x, x = p64 + r64 := ⟨_, rfl⟩
  rw [← hx] at hxy ⊢
  have h1 : |((max 0 (f64 x) : ℚ) : ℝ) - max 0 (x : ℝ)| ≤ (max 0 (x : ℝ)) / 2 ^ 53 := by
    rcases le_total x 0 with h | h
    · have : f64 x ≤ 0 := by rw [← f64_zero]; exact f64_mono h
      rw [max_eq_left this, max_eq_left (by exact_mod_cast h)]
      simp
    · rw [max_eq_right (f64_nonneg h), max_eq_right (by exact_mod_cast h)]
      have := f64_relErr x
      rw [abs_of_nonneg h] at this
      exact_mod_cast this
  have h2 : |max 0 (x : ℝ) - max 0 (p + r)| ≤ e + eta := by
    refine le_trans ?_ hxy
    rw [max_comm 0, max_comm 0]
    exact abs_max_sub_max_le_abs _ _ _
  have h3 : max 0 (x : ℝ) ≤ B + (e + eta) := by
    have := (abs_le.1 h2).2
    linarith
  calc |((max 0 (f64 x) : ℚ) : ℝ) - max 0 (p + r)| ≤ |((max 0 (f64 x) : ℚ) : ℝ) - max 0 (x : ℝ)| + |max 0 (x : ℝ) - max 0 (p + r)| :=
        abs_sub_le _ _ _
    _ ≤ (B + (e + eta)) / 2 ^ 53 + (e + eta) := add_le_add (h1.trans (by gcongr)) h2
    _ = cusumErrStep eta B e := by unfold cusumErrStep; ring

theorem neg_step64 (q r e eta B : ℝ) (q64 r64 : ℚ) (hq : |(q64 : ℝ) - q| ≤ e) (hr : |(r64 : ℝ) - r| ≤ eta)
    (hB : -min 0 (q + r) ≤ B) : |((min 0 (f64 (q64 + r64)) : ℚ) : ℝ) - min 0 (q + r)| ≤ cusumErrStep eta B e := by
  have hm (a : ℝ) : -min 0 a = max 0 (-a) := by rw [← max_neg_neg, neg_zero]
  have hm' (a : ℚ) : min 0 a = -max 0 (-a) := by rw [← min_neg_neg, neg_zero, neg_neg]
  have := pos_step64 (-q) (-r) e eta B (-q64) (-r64) (by push_cast; rw [← abs_neg]; convert hq using 2; ring)
    (by push_cast; rw [← abs_neg]; convert hr using 2; ring) (by rw [hm] at hB; rwa [← neg_add])
  rw [show -q + -r = -(q + r) by ring, ← hm, show -q64 + -r64 = -(q64 + r64) by ring, f64_neg] at this
  rw [hm', ← abs_neg]
  convert this using 2
  push_cast
  ring

/-- The error after `k` steps. -/
noncomputable def cusumErr (eta B : ℝ) : Nat → ℝ
  | 0 => 0
  | k + 1 => cusumErrStep eta B (cusumErr eta B k)

theorem cusumErr_bound (eta B : ℝ) (h0 : 0 ≤ eta) (hB : 0 ≤ B) (k : Nat) (hk : k ≤ 2 ^ 52) :
    0 ≤ cusumErr eta B k ∧ cusumErr eta B k ≤ 2 * k * (2 * eta + B / 2 ^ 53) := by
  induction k with
  | zero => simp [cusumErr]
  | succ k ih =>
    obtain ⟨h1, h2⟩ := ih (by omega)
    have hk' : (k : ℝ) ≤ 2 ^ 52 := by exact_mod_cast (by omega : k ≤ 2 ^ 52)
    refine ⟨by unfold cusumErr cusumErrStep; positivity, ?_⟩
    unfold cusumErr cusumErrStep
    push_cast
    have h3 : cusumErr eta B k / 2 ^ 53 ≤ 2 * eta + B / 2 ^ 53 := by
      rw [div_le_iff₀ (by positivity)]
      refine h2.trans ?_
      have hc : (0:ℝ) ≤ 2 * eta + B / 2 ^ 53 := by positivity
      have : 2 * (k : ℝ) ≤ 2 ^ 53 := by linarith
      nlinarith
    have h4 : eta / 2 ^ 53 ≤ eta := div_le_self h0 (by norm_num)
    have : (1 + 1 / 2 ^ 53) * (cusumErr eta B k + eta) + B / 2 ^ 53 =
      cusumErr eta B k + cusumErr eta B k / 2 ^ 53 + eta + eta / 2 ^ 53 + B / 2 ^ 53 := by ring
    rw [this]
    linarith

theorem cusumErr_mono (eta B : ℝ) (h0 : 0 ≤ eta) (hB : 0 ≤ B) (k : Nat) (hk : k ≤ 2 ^ 52) : cusumErr eta B k ≤ cusumErr eta B (k + 1) := by
  have := (cusumErr_bound eta B h0 hB k hk).1
  have h : cusumErr eta B (k + 1) = cusumErr eta B k + (cusumErr eta B k / 2 ^ 53 + (eta + eta / 2 ^ 53) + B / 2 ^ 53) := by
    simp only [cusumErr, cusumErrStep]; ring
  rw [h]
  have : 0 ≤ cusumErr eta B k / 2 ^ 53 + (eta + eta / 2 ^ 53) + B / 2 ^ 53 := by positivity
  linarith

/-! ## The loop of the filter -/

/-- The inputs of one step: exact return and threshold, and their float64 counterparts. -/
structure CusumPair where
  ret : ℝ
  thr : ℝ
  ret64 : ℚ
  thr64 : ℚ
  inBlock : Bool

/-- The exact run of the filter stays clear of its thresholds by more than `eps` and its sums stay within `B`. -/
def FilterClear (eps B : ℝ) : ℝ → ℝ → List CusumPair → Prop
  | _, _, [] => True
  | p, q, x :: rest =>
    max 0 (p + x.ret) ≤ B ∧ -min 0 (q + x.ret) ≤ B ∧
    eps + |(x.thr64 : ℝ) - x.thr| < |max 0 (p + x.ret) - x.thr| ∧
    eps + |(x.thr64 : ℝ) - x.thr| < |min 0 (q + x.ret) + x.thr| ∧
    (if min 0 (q + x.ret) < -x.thr then FilterClear eps B (max 0 (p + x.ret)) 0 rest
     else if max 0 (p + x.ret) > x.thr then FilterClear eps B 0 (min 0 (q + x.ret)) rest
     else FilterClear eps B (max 0 (p + x.ret)) (min 0 (q + x.ret)) rest)

theorem lt_of_clear (a b : ℝ) (a64 b64 : ℚ) (eps : ℝ) (ha : |(a64 : ℝ) - a| ≤ eps) (h : eps + |(b64 : ℝ) - b| < |a - b|) :
    (a64 < b64 ↔ a < b) ∧ (b64 < a64 ↔ b < a) := by
  have h1 := abs_le.1 ha
  have h2 := abs_le.1 (le_refl |(b64 : ℝ) - b|)
  rw [← Rat.cast_lt (K := ℝ), ← Rat.cast_lt (K := ℝ)]
  rcases lt_trichotomy a b with h' | h' | h'
  · rw [abs_of_neg (sub_neg.2 h')] at h
    constructor <;> constructor <;> intro _ <;> linarith
  · subst h'
    simp only [sub_self, abs_zero] at h
    have := abs_nonneg ((b64 : ℝ) - a)
    have := abs_nonneg ((a64 : ℝ) - a)
    linarith
  · rw [abs_of_pos (sub_pos.2 h')] at h
    constructor <;> constructor <;> intro _ <;> linarith

theorem filterLoop_agree (eta B eps : ℝ) (h0 : 0 ≤ eta) (hB0 : 0 ≤ B) (l : List CusumPair) (hr : ∀ x ∈ l, |(x.ret64 : ℝ) - x.ret| ≤ eta)
    (i k : Nat) (hk : k + l.length ≤ 2 ^ 52) (heps : cusumErr eta B (k + l.length) ≤ eps)
    (p q : ℝ) (p64 q64 : ℚ) (hp : |(p64 : ℝ) - p| ≤ cusumErr eta B k) (hq : |(q64 : ℝ) - q| ≤ cusumErr eta B k)
    (hc : FilterClear eps B p q l) :
    cusumFilterLoop64 i p64 q64 (l.map (fun x => (x.ret64, x.thr64))) = cusumFilterLoop i p q (l.map (fun x => (x.ret, x.thr))) := by
  induction l generalizing i k p q p64 q64 with
  | nil => rfl
  | cons x rest ih =>
    obtain ⟨hB1, hB2, hm1, hm2, hrest⟩ := hc
    have hrx := hr x List.mem_cons_self
    have hp' := pos_step64 p x.ret _ eta B p64 x.ret64 hp hrx hB1
    have hq' := neg_step64 q x.ret _ eta B q64 x.ret64 hq hrx hB2
    have hmono : ∀ j, k + 1 + j ≤ k + (x :: rest).length → cusumErr eta B (k + 1) ≤ cusumErr eta B (k + 1 + j) := by
      intro j hj
      induction j with
      | zero => rfl
      | succ j ihj => exact (ihj (by omega)).trans (cusumErr_mono eta B h0 hB0 _ (by omega))
    have hE : cusumErr eta B (k + 1) ≤ eps := by
      refine le_trans ?_ heps
      have := hmono rest.length (by simp; omega)
      rwa [show k + (x :: rest).length = k + 1 + rest.length by simp; omega]
    have hz : |((0 : ℚ) : ℝ) - 0| ≤ cusumErr eta B (k + 1) := by
      simp only [Rat.cast_zero, sub_self, abs_zero]
      exact (cusumErr_bound eta B h0 hB0 (k + 1) (by simp at hk; omega)).1
    have ih' := fun p q p64 q64 h1 h2 h3 => ih (fun y hy => hr y (List.mem_cons_of_mem _ hy)) (i + 1) (k + 1)
      (by simp at hk; omega) (by rwa [show k + 1 + rest.length = k + (x :: rest).length by simp; omega]) p q p64 q64 h1 h2 h3
    have e1 := (lt_of_clear _ _ _ _ eps (hp'.trans hE) hm1).2
    have e2 := (lt_of_clear (min 0 (q + x.ret)) (-x.thr) _ (-x.thr64) eps (hq'.trans hE)
      (by push_cast; rwa [show -(x.thr64 : ℝ) - -x.thr = -((x.thr64 : ℝ) - x.thr) by ring, abs_neg, sub_neg_eq_add])).1
    simp only [List.map_cons, cusumFilterLoop64, cusumFilterLoop, gt_iff_lt, e1, e2]
    by_cases hn : min 0 (q + x.ret) < -x.thr
    · rw [if_pos hn] at hrest
      rw [if_pos hn, if_pos hn, ih' _ _ _ _ hp' hz hrest]
    · rw [if_neg hn] at hrest
      rw [if_neg hn, if_neg hn]
      by_cases hps : max 0 (p + x.ret) > x.thr
      · rw [if_pos hps] at hrest
        rw [if_pos hps, if_pos hps, ih' _ _ _ _ hz hq' hrest]
      · rw [if_neg hps] at hrest
        rw [if_neg hps, if_neg hps, ih' _ _ _ _ hp' hq' hrest]

/-! ## The loop of the bars -/

/-- The exact run of the bar indexer stays clear of its thresholds by more than `eps` at every trade where a bar may close, and its sums
stay within `B`. -/
def BarClear (eps B : ℝ) : ℝ → ℝ → List CusumPair → Prop
  | _, _, [] => True
  | p, q, x :: rest =>
    max 0 (p + x.ret) ≤ B ∧ -min 0 (q + x.ret) ≤ B ∧
    (x.inBlock = false → eps + |(x.thr64 : ℝ) - x.thr| < |max 0 (p + x.ret) - x.thr| ∧
      eps + |(x.thr64 : ℝ) - x.thr| < |min 0 (q + x.ret) + x.thr|) ∧
    (if x.inBlock then BarClear eps B (max 0 (p + x.ret)) (min 0 (q + x.ret)) rest
     else if max 0 (p + x.ret) ≥ x.thr then BarClear eps B 0 (min 0 (q + x.ret)) rest
     else if min 0 (q + x.ret) ≤ -x.thr then BarClear eps B (max 0 (p + x.ret)) 0 rest
     else BarClear eps B (max 0 (p + x.ret)) (min 0 (q + x.ret)) rest)

theorem barLoop_agree (eta B eps : ℝ) (h0 : 0 ≤ eta) (hB0 : 0 ≤ B) (l : List CusumPair) (hr : ∀ x ∈ l, |(x.ret64 : ℝ) - x.ret| ≤ eta)
    (i k : Nat) (hk : k + l.length ≤ 2 ^ 52) (heps : cusumErr eta B (k + l.length) ≤ eps)
    (p q : ℝ) (p64 q64 : ℚ) (hp : |(p64 : ℝ) - p| ≤ cusumErr eta B k) (hq : |(q64 : ℝ) - q| ≤ cusumErr eta B k)
    (hc : BarClear eps B p q l) :
    cusumBarLoop64 i p64 q64 (l.map (fun x => ⟨x.ret64, x.inBlock, x.thr64⟩)) =
      cusumBarLoop i p q (l.map (fun x => ⟨x.ret, x.inBlock, x.thr⟩)) := by
  induction l generalizing i k p q p64 q64 with
  | nil => rfl
  | cons x rest ih =>
    obtain ⟨hB1, hB2, hm, hrest⟩ := hc
    have hrx := hr x List.mem_cons_self
    have hp' := pos_step64 p x.ret _ eta B p64 x.ret64 hp hrx hB1
    have hq' := neg_step64 q x.ret _ eta B q64 x.ret64 hq hrx hB2
    have hmono : ∀ j, k + 1 + j ≤ k + (x :: rest).length → cusumErr eta B (k + 1) ≤ cusumErr eta B (k + 1 + j) := by
      intro j hj
      induction j with
      | zero => rfl
      | succ j ihj => exact (ihj (by omega)).trans (cusumErr_mono eta B h0 hB0 _ (by omega))
    have hE : cusumErr eta B (k + 1) ≤ eps := by
      refine le_trans ?_ heps
      have := hmono rest.length (by simp; omega)
      rwa [show k + (x :: rest).length = k + 1 + rest.length by simp; omega]
    have hz : |((0 : ℚ) : ℝ) - 0| ≤ cusumErr eta B (k + 1) := by
      simp only [Rat.cast_zero, sub_self, abs_zero]
      exact (cusumErr_bound eta B h0 hB0 (k + 1) (by simp at hk; omega)).1
    have ih' := fun p q p64 q64 h1 h2 h3 => ih (fun y hy => hr y (List.mem_cons_of_mem _ hy)) (i + 1) (k + 1)
      (by simp at hk; omega) (by rwa [show k + 1 + rest.length = k + (x :: rest).length by simp; omega]) p q p64 q64 h1 h2 h3
    simp only [List.map_cons, cusumBarLoop64, cusumBarLoop, ge_iff_le]
    cases hb : x.inBlock with
    | true =>
      rw [hb, if_pos rfl] at hrest
      rw [if_pos rfl, if_pos rfl, ih' _ _ _ _ hp' hq' hrest]
    | false =>
      rw [hb, if_neg (by simp)] at hrest
      obtain ⟨hm1, hm2⟩ := hm hb
      have e1 := not_congr (lt_of_clear _ _ _ _ eps (hp'.trans hE) hm1).1
      have e2 := not_congr (lt_of_clear (min 0 (q + x.ret)) (-x.thr) _ (-x.thr64) eps (hq'.trans hE)
        (by push_cast; rwa [show -(x.thr64 : ℝ) - -x.thr = -((x.thr64 : ℝ) - x.thr) by ring, abs_neg, sub_neg_eq_add])).2
      rw [not_lt, not_lt] at e1 e2
      simp only [Bool.false_eq_true, if_false, e1, e2]
      by_cases hps : max 0 (p + x.ret) ≥ x.thr
      · rw [if_pos hps] at hrest
        rw [if_pos hps, if_pos hps, ih' _ _ _ _ hz hq' hrest]
      · rw [if_neg hps] at hrest
        rw [if_neg hps, if_neg hps]
        by_cases hn : min 0 (q + x.ret) ≤ -x.thr
        · rw [if_pos hn] at hrest
          rw [if_pos hn, if_pos hn, ih' _ _ _ _ hp' hz hrest]
        · rw [if_neg hn] at hrest
          rw [if_neg hn, if_neg hn, ih' _ _ _ _ hp' hq' hrest]

/-! ## Sums of log returns are log price ratios -/

theorem getD_mem_of_lt {β : Type} (S : List β) (d : β) (k : Nat) (hk : k < S.length) : S.getD k d ∈ S := by
  rw [List.getD_eq_getElem?_getD, List.getElem?_eq_getElem hk]
  exact List.getElem_mem hk

theorem log_ret (S : List ℚ) (hpos : ∀ p ∈ S, 0 < p) (i j : Nat) (hi : i < S.length) (hj : j < S.length) :
    Real.log ((S.getD i 0 : ℚ) / (S.getD j 0 : ℚ)) = Real.log (S.getD i 0 : ℚ) - Real.log (S.getD j 0 : ℚ) := by
  have h (k : Nat) (hk : k < S.length) : ((S.getD k 0 : ℚ) : ℝ) ≠ 0 := by
    have := hpos _ (getD_mem_of_lt S 0 k hk)
    exact_mod_cast this.ne'
  exact Real.log_div (h i hi) (h j hj)

/-- A float64 array as an array of real numbers. -/
def toReals (S : List ℚ) : List ℝ := S.map (Rat.cast (K := ℝ))

theorem toReals_getD (S : List ℚ) (i : Nat) : (toReals S).getD i 0 = ((S.getD i 0 : ℚ) : ℝ) := by
  simp only [toReals, List.getD_eq_getElem?_getD, List.getElem?_map]
  cases S[i]? <;> simp

theorem toReals_length (S : List ℚ) : (toReals S).length = S.length := List.length_map _

theorem toOptReals_getD (S : List (Option ℚ)) (i : Nat) :
    (S.map (Option.map (fun x : ℚ => (x : ℝ)))).getD i none = (S.getD i none).map (fun x : ℚ => (x : ℝ)) := by
  simp only [List.getD_eq_getElem?_getD, List.getElem?_map]
  cases S[i]? <;> simp

theorem forwardFill_map {A B : Type} (f : A → B) (p : Option A) (l : List (Option A)) :
    forwardFill (p.map f) (l.map (Option.map f)) = (forwardFill p l).map (Option.map f) := by
  induction l generalizing p with
  | nil => rfl
  | cons x rest ih =>
    cases x with
    | none => simp [forwardFill, ih]
    | some v =>
      have := ih (some v)
      simp only [Option.map_some] at this
      simp [forwardFill, this]

theorem firstNonNan_map {A B : Type} (f : A → B) (l : List (Option A)) : firstNonNan (l.map (Option.map f)) = firstNonNan l := by
  have : (l.map (Option.map f)).findIdx (fun s => s.isSome) = l.findIdx (fun s => s.isSome) := by
    rw [List.findIdx_map]
    congr 1
    funext s
    simp
  simp only [firstNonNan, this, List.length_map]

/-- A running sum of log returns is at every moment the log ratio of the present price to an earlier one. -/
theorem max_ratio (lg : Nat → ℝ) (i : Nat) (p : ℝ) (h : ∃ j ≤ i, p = lg i - lg j) :
    ∃ j ≤ i + 1, max 0 (p + (lg (i + 1) - lg i)) = lg (i + 1) - lg j := by
  obtain ⟨j, hj, rfl⟩ := h
  rcases le_total (lg i - lg j + (lg (i + 1) - lg i)) 0 with h | h
  · exact ⟨i + 1, le_refl _, by rw [max_eq_left h]; ring⟩
  · exact ⟨j, by omega, by rw [max_eq_right h]; ring⟩

theorem min_ratio (lg : Nat → ℝ) (i : Nat) (p : ℝ) (h : ∃ j ≤ i, p = lg i - lg j) :
    ∃ j ≤ i + 1, min 0 (p + (lg (i + 1) - lg i)) = lg (i + 1) - lg j := by
  obtain ⟨j, hj, rfl⟩ := h
  rcases le_total (lg i - lg j + (lg (i + 1) - lg i)) 0 with h | h
  · exact ⟨j, by omega, by rw [min_eq_right h]; ring⟩
  · exact ⟨i + 1, le_refl _, by rw [min_eq_left h]; ring⟩

theorem filterClear_of_ratios (lg : Nat → ℝ) (eps L : ℝ) (mk : Nat → CusumPair) (i m : Nat)
    (hret : ∀ b, i < b → b ≤ i + m → (mk b).ret = lg b - lg (b - 1))
    (hL : ∀ b ≤ i + m, ∀ a ≤ b, |lg b - lg a| ≤ L)
    (hcl : ∀ b, i < b → b ≤ i + m → ∀ a ≤ b, eps + |((mk b).thr64 : ℝ) - (mk b).thr| < |(|lg b - lg a| - |(mk b).thr|)|)
    (p q : ℝ) (hp : ∃ j ≤ i, p = lg i - lg j) (hq : ∃ j ≤ i, q = lg i - lg j) :
    FilterClear eps L p q ((List.range' (i + 1) m).map mk) := by
  induction m generalizing i p q with
  | zero => exact trivial
  | succ m ih =>
    rw [List.range'_succ, List.map_cons]
    have hr := hret (i + 1) (by omega) (by omega)
    rw [show i + 1 - 1 = i from rfl] at hr
    have hp' := max_ratio lg i p hp
    have hq' := min_ratio lg i q hq
    rw [← hr] at hp' hq'
    have hz : ∃ j ≤ i + 1, (0 : ℝ) = lg (i + 1) - lg j := ⟨i + 1, le_refl _, by ring⟩
    have ih' := fun p q h1 h2 => ih (i + 1) (fun b h1 h2 => hret b (by omega) (by omega)) (fun b hb => hL b (by omega))
      (fun b h1 h2 => hcl b (by omega) (by omega)) p q h1 h2
    refine ⟨?_, ?_, ?_, ?_, ?_⟩
    · obtain ⟨j, hj, e⟩ := hp'
      rw [e]
      exact (le_abs_self _).trans (hL _ (by omega) j hj)
    · obtain ⟨j, hj, e⟩ := hq'
      rw [e]
      exact (neg_le_abs _).trans (hL _ (by omega) j hj)
    · obtain ⟨j, hj, e⟩ := hp'
      rw [e]
      exact (hcl _ (by omega) (by omega) j hj).trans_le (abs_abs_sub_abs_le _ _)
    · obtain ⟨j, hj, e⟩ := hq'
      rw [e]
      refine (hcl _ (by omega) (by omega) j hj).trans_le ?_
      have := abs_abs_sub_abs_le (lg (i + 1) - lg j) (-(mk (i + 1)).thr)
      rwa [abs_neg, sub_neg_eq_add] at this
    · split
      · exact ih' _ _ hp' hz
      · split
        · exact ih' _ _ hz hq'
        · exact ih' _ _ hp' hq'

theorem barClear_of_ratios (lg : Nat → ℝ) (eps L : ℝ) (mk : Nat → CusumPair) (i m : Nat)
    (hret : ∀ b, i < b → b ≤ i + m → (mk b).ret = lg b - lg (b - 1))
    (hL : ∀ b ≤ i + m, ∀ a ≤ b, |lg b - lg a| ≤ L)
    (hcl : ∀ b, i < b → b ≤ i + m → (mk b).inBlock = false → ∀ a ≤ b,
      eps + |((mk b).thr64 : ℝ) - (mk b).thr| < |(|lg b - lg a| - |(mk b).thr|)|)
    (p q : ℝ) (hp : ∃ j ≤ i, p = lg i - lg j) (hq : ∃ j ≤ i, q = lg i - lg j) :
    BarClear eps L p q ((List.range' (i + 1) m).map mk) := by
  induction m generalizing i p q with
  | zero => exact trivial
  | succ m ih =>
    rw [List.range'_succ, List.map_cons]
    have hr := hret (i + 1) (by omega) (by omega)
    rw [show i + 1 - 1 = i from rfl] at hr
    have hp' := max_ratio lg i p hp
    have hq' := min_ratio lg i q hq
    rw [← hr] at hp' hq'
    have hz : ∃ j ≤ i + 1, (0 : ℝ) = lg (i + 1) - lg j := ⟨i + 1, le_refl _, by ring⟩
    have ih' := fun p q h1 h2 => ih (i + 1) (fun b h1 h2 => hret b (by omega) (by omega)) (fun b hb => hL b (by omega))
      (fun b h1 h2 => hcl b (by omega) (by omega)) p q h1 h2
    refine ⟨?_, ?_, ?_, ?_⟩
    · obtain ⟨j, hj, e⟩ := hp'
      rw [e]
      exact (le_abs_self _).trans (hL _ (by omega) j hj)
    · obtain ⟨j, hj, e⟩ := hq'
      rw [e]
      exact (neg_le_abs _).trans (hL _ (by omega) j hj)
    · intro hb
      constructor
      · obtain ⟨j, hj, e⟩ := hp'
        rw [e]
        exact (hcl _ (by omega) (by omega) hb j hj).trans_le (abs_abs_sub_abs_le _ _)
      · obtain ⟨j, hj, e⟩ := hq'
        rw [e]
        refine (hcl _ (by omega) (by omega) hb j hj).trans_le ?_
        have := abs_abs_sub_abs_le (lg (i + 1) - lg j) (-(mk (i + 1)).thr)
        rwa [abs_neg, sub_neg_eq_add] at this
    · split
      · exact ih' _ _ hp' hq'
      · split
        · exact ih' _ _ hz hq'
        · split
          · exact ih' _ _ hp' hz
          · exact ih' _ _ hp' hq'

/-! ## The float64 log return -/

/-- The float64 logarithm is within one unit in the last place of the true one (what C libraries document). -/
def LogAccurate (log64 : ℚ → ℚ) : Prop := ∀ x : ℚ, 0 < x → |(log64 x : ℝ) - Real.log x| ≤ |Real.log x| / 2 ^ 52

theorem f64_pos' {x : ℚ} (h : 0 < x) : 0 < f64 x := by
  have := (abs_le.1 (f64_relErr x)).1
  rw [abs_of_pos h] at this
  have h2 : x / 2 ^ 53 < x := div_lt_self h (by norm_num)
  linarith

theorem log_f64 (x : ℚ) (h : 0 < x) : |Real.log (f64 x : ℚ) - Real.log x| ≤ 1 / 2 ^ 52 := by
  have hx : (0 : ℝ) < x := by exact_mod_cast h
  have hf : (0 : ℝ) < (f64 x : ℚ) := by exact_mod_cast f64_pos' h
  have hr : |((f64 x : ℚ) : ℝ) - x| ≤ x / 2 ^ 53 := by
    have := f64_relErr x
    rw [abs_of_pos h] at this
    exact_mod_cast this
  obtain ⟨h1, h2⟩ := abs_le.1 hr
  rw [← Real.log_div hf.ne' hx.ne', abs_le]
  have hq : (0 : ℝ) < (f64 x : ℚ) / x := div_pos hf hx
  constructor
  · refine le_trans ?_ (Real.one_sub_inv_le_log_of_pos hq)
    rw [inv_div]
    have : (x : ℝ) / (f64 x : ℚ) ≤ 1 + 1 / 2 ^ 52 := by
      rw [div_le_iff₀ hf]
      have h3 : (x : ℝ) * (1 - 1 / 2 ^ 53) ≤ (f64 x : ℚ) := by linarith
      have h4 : (x : ℝ) ≤ (1 + 1 / 2 ^ 52) * (x * (1 - 1 / 2 ^ 53)) := by
        have : (1 : ℝ) ≤ (1 + 1 / 2 ^ 52) * (1 - 1 / 2 ^ 53) := by norm_num
        nlinarith
      refine h4.trans ?_
      gcongr
    linarith
  · refine (Real.log_le_sub_one_of_pos hq).trans ?_
    have : ((f64 x : ℚ) : ℝ) / x ≤ 1 + 1 / 2 ^ 53 := by
      rw [div_le_iff₀ hx]
      linarith
    have h5 : (1 : ℝ) / 2 ^ 53 ≤ 1 / 2 ^ 52 := by norm_num
    linarith

theorem ret64_err (log64 : ℚ → ℚ) (hlog : LogAccurate log64) (x : ℚ) (h : 0 < x) (L : ℝ) (hL : |Real.log x| ≤ L) :
    |(log64 (f64 x) : ℝ) - Real.log x| ≤ (L + 2) / 2 ^ 52 := by
  have h1 := log_f64 x h
  have h2 := hlog (f64 x) (f64_pos' h)
  have h3 : |Real.log (f64 x : ℚ)| ≤ L + 1 := by
    have := abs_sub_abs_le_abs_sub (Real.log (f64 x : ℚ)) (Real.log x)
    have h5 : (1 : ℝ) / 2 ^ 52 ≤ 1 := by norm_num
    linarith
  calc |(log64 (f64 x) : ℝ) - Real.log x| ≤ |(log64 (f64 x) : ℝ) - Real.log (f64 x : ℚ)| + |Real.log (f64 x : ℚ) - Real.log x| := abs_sub_le _ _ _
    _ ≤ (L + 1) / 2 ^ 52 + 1 / 2 ^ 52 := add_le_add (h2.trans (by gcongr)) h1
    _ = (L + 2) / 2 ^ 52 := by ring

theorem cusumErr_final (L : ℝ) (hL : 0 ≤ L) (n k : Nat) (hkn : k ≤ n) (hn : n ≤ 2 ^ 52) :
    cusumErr ((L + 2) / 2 ^ 52) L k ≤ n * (5 * L + 8) / 2 ^ 52 := by
  refine (cusumErr_bound _ _ (by positivity) hL k (by omega)).2.trans ?_
  have h : (2 : ℝ) * k * (2 * ((L + 2) / 2 ^ 52) + L / 2 ^ 53) = k * (5 * L + 8) / 2 ^ 52 := by ring
  rw [h]
  have : (k : ℝ) ≤ n := by exact_mod_cast hkn
  gcongr

/-! ## The property -/

/-- The threshold that `cusum_filter` uses at position `b`. -/
def thrOf (threshold : List ℚ) (b : Nat) : ℚ := if threshold.length = 1 then threshold.getD 0 0 else threshold.getD b 0

/-- **C118 (events).**  If no log price ratio between two samples comes within `n (5 L + 8) / 2 ^ 52` of the threshold at the later of
the two, where `L` bounds all log price ratios, then the filter computed in float64 reports exactly the events that it would report with
exact arithmetic and the real logarithm. -/
theorem C118_filter (log64 : ℚ → ℚ) (hlog : LogAccurate log64) (series threshold : List ℚ) (hn : series.length ≤ 2 ^ 52)
    (hpos : ∀ p ∈ series, 0 < p) (L : ℝ)
    (hL : ∀ b < series.length, ∀ a < series.length, |Real.log ((series.getD b 0 : ℚ) / (series.getD a 0 : ℚ))| ≤ L)
    (hclear : ∀ b < series.length, ∀ a ≤ b, series.length * (5 * L + 8) / 2 ^ 52 <
      |(|Real.log ((series.getD b 0 : ℚ) / (series.getD a 0 : ℚ))| - |(thrOf threshold b : ℝ)|)|) :
    cusumFilter64 log64 series threshold = cusumFilter Real.log (toReals series) (toReals threshold) := by
  unfold cusumFilter64 cusumFilter
  simp only [toReals_length]
  split
  · rfl
  · rename_i h2
    split
    · rfl
    · rename_i h3
      obtain ⟨n, hn'⟩ : ∃ n, n = series.length := ⟨_, rfl⟩
      have hL0 : 0 ≤ L := (abs_nonneg _).trans (hL 0 (by omega) 0 (by omega))
      let mk : Nat → CusumPair := fun i => ⟨Real.log ((series.getD i 0 : ℚ) / (series.getD (i - 1) 0 : ℚ)), (thrOf threshold i : ℝ),
        log64 (f64 (series.getD i 0 / series.getD (i - 1) 0)), thrOf threshold i, false⟩
      have hthr : ∀ i < n, (if threshold.length = 1 then List.replicate series.length (threshold.getD 0 0) else threshold).getD i 0 =
          thrOf threshold i := by
        intro i hi
        unfold thrOf
        split
        · simp [List.getD_eq_getElem?_getD, ← hn', hi]
        · rfl
      have hthr' : ∀ i < n, (if threshold.length = 1 then List.replicate series.length ((toReals threshold).getD 0 0) else
          toReals threshold).getD i 0 = (thrOf threshold i : ℝ) := by
        intro i hi
        unfold thrOf
        split
        · rw [toReals_getD]
          simp [List.getD_eq_getElem?_getD, ← hn', hi]
        · rw [toReals_getD]
      have e1 : (List.range' 1 (series.length - 1)).map (fun i => (log64 (f64 (series.getD i 0 / series.getD (i - 1) 0)),
          (if threshold.length = 1 then List.replicate series.length (threshold.getD 0 0) else threshold).getD i 0)) =
          ((List.range' 1 (n - 1)).map mk).map (fun x => (x.ret64, x.thr64)) := by
        rw [List.map_map, ← hn']
        apply List.map_congr_left
        intro i hi
        have := List.mem_range'_1.1 hi
        rw [hn', hthr i (by omega)]
        rfl
      have e2 : (List.range' 1 (series.length - 1)).map (fun i => (Real.log ((toReals series).getD i 0 / (toReals series).getD (i - 1) 0),
          (if threshold.length = 1 then List.replicate series.length ((toReals threshold).getD 0 0) else toReals threshold).getD i 0)) =
          ((List.range' 1 (n - 1)).map mk).map (fun x => (x.ret, x.thr)) := by
        rw [List.map_map, ← hn']
        apply List.map_congr_left
        intro i hi
        have := List.mem_range'_1.1 hi
        rw [hn', hthr' i (by omega), toReals_getD, toReals_getD]
        rfl
      rw [e1, e2, filterLoop_agree ((L + 2) / 2 ^ 52) L (series.length * (5 * L + 8) / 2 ^ 52) (by positivity) hL0 _ ?_ 1 0 ?_ ?_ 0 0 0 0
        (by simp [cusumErr]) (by simp [cusumErr]) ?_]
      · intro x hx
        obtain ⟨i, hi, rfl⟩ := List.mem_map.1 hx
        have := List.mem_range'_1.1 hi
        have hq : 0 < series.getD i 0 / series.getD (i - 1) 0 :=
          div_pos (hpos _ (getD_mem_of_lt _ _ _ (by omega))) (hpos _ (getD_mem_of_lt _ _ _ (by omega)))
        have hl := hL i (by omega) (i - 1) (by omega)
        have := ret64_err log64 hlog _ hq L (by push_cast; exact hl)
        push_cast at this
        exact this
      · simp
        omega
      · rw [← hn']
        exact cusumErr_final L hL0 n _ (by simp) (by omega)
      · refine filterClear_of_ratios (fun i => Real.log (series.getD i 0 : ℚ)) _ L mk 0 (n - 1) ?_ ?_ ?_ 0 0 ⟨0, le_refl _, by simp⟩
          ⟨0, le_refl _, by simp⟩
        · intro b h1 h2
          exact log_ret series hpos b (b - 1) (by omega) (by omega)
        · intro b hb a ha
          rw [← log_ret series hpos b a (by omega) (by omega)]
          exact hL b (by omega) a (by omega)
        · intro b h1 h2 a ha
          rw [← log_ret series hpos b a (by omega) (by omega)]
          have := hclear b (by omega) a ha
          simpa [mk] using this

theorem max_f64_err (x fl : ℚ) : |((max (f64 x) fl : ℚ) : ℝ) - ((max x fl : ℚ) : ℝ)| ≤ |(x : ℝ)| / 2 ^ 53 := by
  have h1 : |max (f64 x) fl - max x fl| ≤ |x| / 2 ^ 53 := (abs_max_sub_max_le_abs _ _ _).trans (f64_relErr x)
  exact_mod_cast h1

/-- **C118 (bars).**  The same for the bars: at every trade where a bar may close (its threshold `lam` is a number and the next trade has
another timestamp) no log price ratio between an earlier trade and this one comes within `n (5 L + 8) / 2 ^ 52`, plus the rounding of the
threshold itself, of the threshold. -/
theorem C118_bars (log64 : ℚ → ℚ) (hlog : LogAccurate log64) (ts : List Int) (prices : List ℚ) (sigma : List (Option ℚ))
    (floor mult : ℚ) (hn : prices.length ≤ 2 ^ 52) (hpos : ∀ p ∈ prices, 0 < p) (L : ℝ)
    (hL : ∀ b < prices.length, ∀ a < prices.length, |Real.log ((prices.getD b 0 : ℚ) / (prices.getD a 0 : ℚ))| ≤ L)
    (hclear : ∀ b < prices.length, ∀ s : ℚ, (forwardFill none sigma).getD b none = some s →
      (b + 1 < prices.length → ts.getD b 0 ≠ ts.getD (b + 1) 0) → ∀ a ≤ b,
      prices.length * (5 * L + 8) / 2 ^ 52 + |(mult * s : ℝ)| / 2 ^ 53 <
        |(|Real.log ((prices.getD b 0 : ℚ) / (prices.getD a 0 : ℚ))| - |((max (mult * s) floor : ℚ) : ℝ)|)|) :
    cusumBarIndexer64 log64 ts prices sigma floor mult =
      cusumBarIndexer Real.log ts (toReals prices) (sigma.map (Option.map (fun x : ℚ => (x : ℝ)))) floor mult := by
  unfold cusumBarIndexer64 cusumBarIndexer
  simp only [toReals_length, List.length_map, firstNonNan_map]
  split
  · rfl
  · rename_i h2
    obtain ⟨f, hf⟩ : ∃ f, f = firstNonNan sigma := ⟨_, rfl⟩
    obtain ⟨n, hn'⟩ : ∃ n, n = prices.length := ⟨_, rfl⟩
    rw [← hf, ← hn']
    by_cases hnf : n ≤ f + 1
    · rw [Nat.sub_eq_zero_of_le hnf]
      rfl
    have hff : forwardFill none (sigma.map (Option.map (fun x : ℚ => (x : ℝ)))) = (forwardFill none sigma).map (Option.map (fun x : ℚ => (x : ℝ))) :=
      forwardFill_map (fun x : ℚ => (x : ℝ)) none sigma
    rw [hff]
    have hL0 : 0 ≤ L := (abs_nonneg _).trans (hL 0 (by omega) 0 (by omega))
    let mk : Nat → CusumPair := fun i =>
      let t64 := cusumTickAt64 log64 ts prices (forwardFill none sigma) floor mult i
      let t := cusumTickAt Real.log ts (toReals prices) ((forwardFill none sigma).map (Option.map (fun x : ℚ => (x : ℝ)))) floor mult i
      ⟨t.ret, t.lam, t64.ret, t64.lam, t64.inBlock⟩
    have hblock : ∀ i, (cusumTickAt Real.log ts (toReals prices) ((forwardFill none sigma).map (Option.map (fun x : ℚ => (x : ℝ)))) floor mult i).inBlock =
        (cusumTickAt64 log64 ts prices (forwardFill none sigma) floor mult i).inBlock := by
      intro i
      simp only [cusumTickAt, cusumTickAt64, toReals_length, toOptReals_getD, Option.isNone_map]
    have e1 : (List.range' (f + 1) (n - (f + 1))).map (cusumTickAt64 log64 ts prices (forwardFill none sigma) floor mult) =
        ((List.range' (f + 1) (n - (f + 1))).map mk).map (fun x => ⟨x.ret64, x.inBlock, x.thr64⟩) := by
      rw [List.map_map]
      rfl
    have e2 : (List.range' (f + 1) (n - (f + 1))).map (cusumTickAt Real.log ts (toReals prices)
          ((forwardFill none sigma).map (Option.map (fun x : ℚ => (x : ℝ)))) floor mult) =
        ((List.range' (f + 1) (n - (f + 1))).map mk).map (fun x => ⟨x.ret, x.inBlock, x.thr⟩) := by
      rw [List.map_map]
      apply List.map_congr_left
      intro i _
      simp only [Function.comp_apply, mk, ← hblock]
    rw [e1, e2, barLoop_agree ((L + 2) / 2 ^ 52) L (prices.length * (5 * L + 8) / 2 ^ 52) (by positivity) hL0 _ ?_ (f + 1) 0 ?_ ?_ 0 0 0 0
      (by simp [cusumErr]) (by simp [cusumErr]) ?_]
    · intro x hx
      obtain ⟨i, hi, rfl⟩ := List.mem_map.1 hx
      have := List.mem_range'_1.1 hi
      have hq : 0 < prices.getD i 0 / prices.getD (i - 1) 0 :=
        div_pos (hpos _ (getD_mem_of_lt _ _ _ (by omega))) (hpos _ (getD_mem_of_lt _ _ _ (by omega)))
      have hl := hL i (by omega) (i - 1) (by omega)
      have := ret64_err log64 hlog _ hq L (by push_cast; exact hl)
      push_cast at this
      simp only [mk, cusumTickAt, cusumTickAt64, toReals_getD]
      exact this
    · simp
      omega
    · rw [← hn']
      exact cusumErr_final L hL0 n _ (by simp) (by omega)
    · refine barClear_of_ratios (fun i => Real.log (prices.getD i 0 : ℚ)) _ L mk f (n - (f + 1)) ?_ ?_ ?_ 0 0 ⟨f, le_refl _, by simp⟩
        ⟨f, le_refl _, by simp⟩
      · intro b h1 h2
        simp only [mk, cusumTickAt, toReals_getD]
        exact log_ret prices hpos b (b - 1) (by omega) (by omega)
      · intro b hb a ha
        rw [← log_ret prices hpos b a (by omega) (by omega)]
        exact hL b (by omega) a (by omega)
      · intro b h1 h2 hb a ha
        rw [← log_ret prices hpos b a (by omega) (by omega)]
        simp only [mk, cusumTickAt64, Bool.or_eq_false_iff, Bool.and_eq_false_iff, decide_eq_false_iff_not] at hb
        obtain ⟨hb1, hb2⟩ := hb
        cases hs : (forwardFill none sigma).getD b none with
        | none => rw [hs] at hb2; simp at hb2
        | some s =>
          have hc := hclear b (by omega) s hs (fun hlt he => by rcases hb1 with h | h; exact h hlt; exact h he) a ha
          have h64 : (mk b).thr64 = max (f64 (mult * s)) floor := by simp only [mk, cusumTickAt64, hs]
          have hth : (mk b).thr = ((max (mult * s) floor : ℚ) : ℝ) := by
            simp only [mk, cusumTickAt, toOptReals_getD, hs, Option.map_some]
            push_cast
            rfl
          rw [h64, hth]
          refine lt_of_le_of_lt ?_ hc
          have := max_f64_err (mult * s) floor
          push_cast at this ⊢
          linarith

/-! ### The hypotheses can be met -/

/-- There are float64 logarithms as accurate as assumed. -/
theorem logAccurate_exists : ∃ log64 : ℚ → ℚ, LogAccurate log64 := by
  have h : ∀ x : ℚ, ∃ y : ℚ, |(y : ℝ) - Real.log x| ≤ |Real.log x| / 2 ^ 52 := by
    intro x
    by_cases hx : Real.log x = 0
    · exact ⟨0, by simp [hx]⟩
    · have hp : 0 < |Real.log x| / 2 ^ 52 := by positivity
      obtain ⟨y, h1, h2⟩ := exists_rat_btwn (show Real.log x < Real.log x + |Real.log x| / 2 ^ 52 by linarith)
      exact ⟨y, by rw [abs_of_pos (by linarith)]; linarith⟩
  choose f hf using h
  exact ⟨f, fun x _ => hf x⟩

/-- A price that doubles and comes back, with threshold one half: the float64 filter reports the exact events. -/
example (log64 : ℚ → ℚ) (hlog : LogAccurate log64) :
    cusumFilter64 log64 [1, 2, 1] [1 / 2] = cusumFilter Real.log (toReals [1, 2, 1]) (toReals [1 / 2]) := by
  have h2 := Real.log_two_gt_d9
  have h3 := Real.log_two_lt_d9
  have hinv : Real.log (1 / 2) = -Real.log 2 := by rw [one_div, Real.log_inv]
  have habs : |Real.log 2| = Real.log 2 := abs_of_pos (by linarith)
  refine C118_filter log64 hlog _ _ (by simp) (by simp) 1 ?_ ?_
  · intro b hb a ha
    simp only [List.length_cons, List.length_nil] at ha hb
    interval_cases a <;> interval_cases b <;> simp [Real.log_inv, habs] <;> linarith
  · intro b hb a ha
    simp only [List.length_cons, List.length_nil] at hb
    interval_cases b <;> interval_cases a <;> simp [thrOf, Real.log_inv, habs] <;> norm_num <;> rw [lt_abs] <;> left <;> linarith

/-! ## What holds without a margin -/

theorem filterLoop64_jump (pre : List (ℚ × ℚ)) (r t : ℚ) (rest : List (ℚ × ℚ)) (hr : f64 r = r) (h : t < |r|) (i : Nat)
    (p q : ℚ) (hp : 0 ≤ p) (hq : q ≤ 0) : i + pre.length ∈ cusumFilterLoop64 i p q (pre ++ (r, t) :: rest) := by
  induction pre generalizing i p q with
  | nil =>
    simp only [List.nil_append, cusumFilterLoop64, List.length_nil, Nat.add_zero]
    rcases lt_abs.1 h with h | h
    · split
      · exact List.mem_cons_self
      · rw [if_pos]
        · exact List.mem_cons_self
        · refine lt_of_lt_of_le h (le_max_of_le_right ?_)
          conv_lhs => rw [← hr]
          exact f64_mono (by linarith)
    · rw [if_pos]
      · exact List.mem_cons_self
      · have : f64 (q + r) ≤ r := by
          conv_rhs => rw [← hr]
          exact f64_mono (by linarith)
        exact lt_of_le_of_lt (min_le_right _ _) (by linarith)
  | cons x pre ih =>
    obtain ⟨r', t'⟩ := x
    have e : i + ((r', t') :: pre).length = i + 1 + pre.length := by simp; omega
    simp only [List.cons_append, cusumFilterLoop64]
    rw [e]
    have h1 : 0 ≤ max 0 (f64 (p + r')) := le_max_left _ _
    have h2 : min 0 (f64 (q + r')) ≤ 0 := min_le_left _ _
    split
    · exact List.mem_cons_of_mem _ (ih _ _ _ h1 (le_refl _))
    · split
      · exact List.mem_cons_of_mem _ (ih _ _ _ (le_refl _) h2)
      · exact ih _ _ _ h1 h2

theorem barLoop64_jump (pre : List (CusumTick ℚ)) (t : CusumTick ℚ) (rest : List (CusumTick ℚ)) (hr : f64 t.ret = t.ret)
    (hb : t.inBlock = false) (h : t.lam ≤ |t.ret|) (i : Nat) (p q : ℚ) (hp : 0 ≤ p) (hq : q ≤ 0) :
    i + pre.length ∈ cusumBarLoop64 i p q (pre ++ t :: rest) := by
  induction pre generalizing i p q with
  | nil =>
    simp only [List.nil_append, cusumBarLoop64, List.length_nil, Nat.add_zero, hb, Bool.false_eq_true, if_false]
    rcases le_abs.1 h with h | h
    · rw [if_pos]
      · exact List.mem_cons_self
      · refine le_trans h (le_max_of_le_right ?_)
        conv_lhs => rw [← hr]
        exact f64_mono (by linarith)
    · split
      · exact List.mem_cons_self
      · rw [if_pos]
        · exact List.mem_cons_self
        · have : f64 (q + t.ret) ≤ t.ret := by
            conv_rhs => rw [← hr]
            exact f64_mono (by linarith)
          exact le_trans (min_le_right _ _) (by linarith)
  | cons x pre ih =>
    have e : i + (x :: pre).length = i + 1 + pre.length := by simp; omega
    simp only [List.cons_append, cusumBarLoop64]
    rw [e]
    have h1 : 0 ≤ max 0 (f64 (p + x.ret)) := le_max_left _ _
    have h2 : min 0 (f64 (q + x.ret)) ≤ 0 := min_le_left _ _
    split
    · exact ih _ _ _ h1 h2
    · split
      · exact List.mem_cons_of_mem _ (ih _ _ _ (le_refl _) h2)
      · split
        · exact List.mem_cons_of_mem _ (ih _ _ _ h1 (le_refl _))
        · exact ih _ _ _ h1 h2

theorem range'_map_split {β : Type} (g : Nat → β) (s m b : Nat) (h1 : s ≤ b) (h2 : b < s + m) :
    (List.range' s m).map g = (List.range' s (b - s)).map g ++ g b :: (List.range' (b + 1) (m - (b - s) - 1)).map g := by
  have e : m = (b - s) + ((m - (b - s) - 1) + 1) := by omega
  conv_lhs => rw [e, ← List.range'_append_1, List.map_append, show s + (b - s) = b by omega, List.range'_succ, List.map_cons]

/-- **C118 (jumps).**  Rounding never hides a single large move: wherever the float64 log return of one step exceeds the threshold in
absolute value, the float64 filter reports an event, whatever came before. -/
theorem C118_jump (log64 : ℚ → ℚ) (h64 : ∀ x, f64 (log64 x) = log64 x) (series threshold : List ℚ) (ev : List Nat)
    (hev : cusumFilter64 log64 series threshold = .ok ev) (b : Nat) (h1 : 1 ≤ b) (hb : b < series.length)
    (h : thrOf threshold b < |log64 (f64 (series.getD b 0 / series.getD (b - 1) 0))|) : b ∈ ev := by
  unfold cusumFilter64 at hev
  rw [if_neg (by omega)] at hev
  split at hev
  · exact absurd hev (by simp)
  · simp only [Except.ok.injEq] at hev
    rw [← hev, range'_map_split _ 1 (series.length - 1) b h1 (by omega)]
    have hthr : (if threshold.length = 1 then List.replicate series.length (threshold.getD 0 0) else threshold).getD b 0 =
        thrOf threshold b := by
      unfold thrOf
      split
      · simp [List.getD_eq_getElem?_getD, hb]
      · rfl
    have := filterLoop64_jump ((List.range' 1 (b - 1)).map (fun i => (log64 (f64 (series.getD i 0 / series.getD (i - 1) 0)),
      (if threshold.length = 1 then List.replicate series.length (threshold.getD 0 0) else threshold).getD i 0)))
      (log64 (f64 (series.getD b 0 / series.getD (b - 1) 0)))
      ((if threshold.length = 1 then List.replicate series.length (threshold.getD 0 0) else threshold).getD b 0)
      ((List.range' (b + 1) (series.length - 1 - (b - 1) - 1)).map (fun i => (log64 (f64 (series.getD i 0 / series.getD (i - 1) 0)),
      (if threshold.length = 1 then List.replicate series.length (threshold.getD 0 0) else threshold).getD i 0)))
      (h64 _) (by rw [hthr]; exact h) 1 0 0 (le_refl _) (le_refl _)
    rwa [List.length_map, List.length_range', show 1 + (b - 1) = b by omega] at this

example : cusumFilter64 (fun x => f64 (x - 1)) [8, 9, 18] [1 / 2] = .ok [2] ∧
    thrOf [1 / 2] 2 < |f64 (f64 (([8, 9, 18] : List ℚ).getD 2 0 / ([8, 9, 18] : List ℚ).getD 1 0) - 1)| := by decide +kernel

/-- The same for bars, at a trade where a bar may close. -/
theorem C118_jump_bars (log64 : ℚ → ℚ) (h64 : ∀ x, f64 (log64 x) = log64 x) (ts : List Int) (prices : List ℚ) (sigma : List (Option ℚ))
    (floor mult : ℚ) (cl : List Nat) (hcl : cusumBarIndexer64 log64 ts prices sigma floor mult = .ok cl) (b : Nat) (s : ℚ)
    (h1 : firstNonNan sigma < b) (hb : b < prices.length) (hs : (forwardFill none sigma).getD b none = some s)
    (hlast : b + 1 < prices.length → ts.getD b 0 ≠ ts.getD (b + 1) 0)
    (h : max (f64 (mult * s)) floor ≤ |log64 (f64 (prices.getD b 0 / prices.getD (b - 1) 0))|) : b ∈ cl := by
  unfold cusumBarIndexer64 at hcl
  split at hcl
  · exact absurd hcl (by simp)
  · simp only [Except.ok.injEq] at hcl
    rw [← hcl, range'_map_split _ (firstNonNan sigma + 1) (prices.length - (firstNonNan sigma + 1)) b (by omega) (by omega)]
    refine List.mem_cons_of_mem _ ?_
    have := barLoop64_jump ((List.range' (firstNonNan sigma + 1) (b - (firstNonNan sigma + 1))).map
      (cusumTickAt64 log64 ts prices (forwardFill none sigma) floor mult))
      (cusumTickAt64 log64 ts prices (forwardFill none sigma) floor mult b)
      ((List.range' (b + 1) (prices.length - (firstNonNan sigma + 1) - (b - (firstNonNan sigma + 1)) - 1)).map
        (cusumTickAt64 log64 ts prices (forwardFill none sigma) floor mult)) (h64 _)
      (by
        simp only [cusumTickAt64, hs, Option.isNone_some, Bool.or_false, Bool.and_eq_false_iff, decide_eq_false_iff_not]
        by_cases hlt : b + 1 < prices.length
        · exact Or.inr (hlast hlt)
        · exact Or.inl hlt)
      (by simp only [cusumTickAt64, hs]; exact h) (firstNonNan sigma + 1) 0 0 (le_refl _) (le_refl _)
    rwa [List.length_map, List.length_range', show firstNonNan sigma + 1 + (b - (firstNonNan sigma + 1)) = b by omega] at this

example : cusumBarIndexer64 (fun x => f64 (x - 1)) [1, 2, 3] [8, 9, 18] [some (1 / 2), some (1 / 2), some (1 / 2)] 0 1 = .ok [0, 2] := by decide +kernel

/-- **C118: the margin is needed.**  Eight steps of the float64 number nearest to 0.1 against the float64 number nearest to 0.8: exactly, the
sum reaches the threshold and a bar closes; in float64 the sum stays below. -/
theorem C118_margin_needed : ∃ l : List (CusumTick ℚ), (∀ t ∈ l, f64 t.ret = t.ret ∧ f64 t.lam = t.lam ∧ t.inBlock = false) ∧
    cusumBarLoop 1 0 0 l = [8] ∧ cusumBarLoop64 1 0 0 l = [] :=
  ⟨List.replicate 8 ⟨f64 (1 / 10), false, f64 (8 / 10)⟩,
    fun t ht => by rw [List.eq_of_mem_replicate ht]; exact ⟨f64_idem _, f64_idem _, rfl⟩, by decide +kernel, by decide +kernel⟩

/-- The hypotheses of `C118_jump` on data: a step of 1 against a threshold of one half, after smaller steps (the logarithm replaced by
`x - 1`). -/
example : cusumFilter64 (fun x => f64 (x - 1)) [8, 9, 18] [1 / 2] = .ok [2] := by decide +kernel

end FinML
