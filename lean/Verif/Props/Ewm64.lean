/-
C100: exponentially weighted means and standard deviations in float64.
-/
import Verif.Model.Float64Ewm
import Verif.Props.Variance
import Verif.Props.TickSize64

set_option linter.unusedSectionVars false

namespace FinML

/-! ### One decaying sum -/

/-- Rounding an approximation: the error grows by the unit roundoff of the size. -/
theorem f64_step {x X e B : ℚ} (h : |x - X| ≤ e) (hX : |X| ≤ B) : |f64 x - X| ≤ e + (B + e) / 2 ^ 53 := by
  have h1 := f64_relErr x
  have h2 : |x| ≤ B + e := by
    have := abs_add_le (x - X) X
    rw [sub_add_cancel] at this
    linarith
  have h3 := abs_add_le (f64 x - x) (x - X)
  rw [sub_add_sub_cancel] at h3
  have h4 : |x| / 2 ^ 53 ≤ (B + e) / 2 ^ 53 := by gcongr
  linarith

/-- One step of a decaying sum in float64. -/
theorem decay_step (b b' X x c c' C W L e : ℚ) (hb : 0 ≤ b) (hb' : |b' - b| ≤ b * (10 / 2 ^ 53)) (hC : 0 ≤ C) (hW : 0 ≤ W)
    (hL : b * W ≤ L) (hL0 : 0 ≤ L) (he : e = 30 / 2 ^ 53 * (L + 1)) (he1 : e ≤ 1) (hX : |X| ≤ C * W) (hx : |x - X| ≤ e * (C * W))
    (hc : |c| ≤ C) (hc' : |c' - c| ≤ C / 2 ^ 53) :
    |b * X + c| ≤ C * (b * W + 1) ∧ |f64 (f64 (b' * x) + c') - (b * X + c)| ≤ e * (C * (b * W + 1)) := by
  have hu : (0 : ℚ) < 1 / 2 ^ 53 := by norm_num
  have hbX : |b * X| ≤ b * (C * W) := by
    rw [abs_mul, abs_of_nonneg hb]
    exact mul_le_mul_of_nonneg_left hX hb
  have h0 : |b * X + c| ≤ C * (b * W + 1) := by
    refine le_trans (abs_add_le _ _) ?_
    linarith [hbX, hc]
  refine ⟨h0, ?_⟩
  have hCW : 0 ≤ C * W := mul_nonneg hC hW
  have hbCW : 0 ≤ b * (C * W) := mul_nonneg hb hCW
  have he0 : 0 ≤ e := by rw [he]; positivity
  -- the product
  have h1 : |b' * x - b * X| ≤ b * (C * W) * (e * (1 + 10 / 2 ^ 53) + 10 / 2 ^ 53) := by
    have e1 : b' * x - b * X = b' * (x - X) + (b' - b) * X := by ring
    have hb1 : |b'| ≤ b * (1 + 10 / 2 ^ 53) := by
      have := abs_add_le (b' - b) b
      rw [sub_add_cancel, abs_of_nonneg hb] at this
      linarith
    rw [e1]
    refine le_trans (abs_add_le _ _) ?_
    rw [abs_mul, abs_mul]
    have h2 : |b'| * |x - X| ≤ b * (1 + 10 / 2 ^ 53) * (e * (C * W)) :=
      mul_le_mul hb1 hx (abs_nonneg _) (mul_nonneg hb (by norm_num))
    have h3 : |b' - b| * |X| ≤ b * (10 / 2 ^ 53) * (C * W) :=
      mul_le_mul hb' hX (abs_nonneg _) (mul_nonneg hb (by norm_num))
    linarith
  have h2 := f64_step h1 hbX
  -- the sum
  have h3 : |f64 (b' * x) + c' - (b * X + c)| ≤ b * (C * W) * (e * (1 + 10 / 2 ^ 53) + 10 / 2 ^ 53) +
      (b * (C * W) + b * (C * W) * (e * (1 + 10 / 2 ^ 53) + 10 / 2 ^ 53)) / 2 ^ 53 + C / 2 ^ 53 := by
    have e1 : f64 (b' * x) + c' - (b * X + c) = (f64 (b' * x) - b * X) + (c' - c) := by ring
    rw [e1]
    exact le_trans (abs_add_le _ _) (add_le_add h2 hc')
  have h4 := f64_step h3 h0
  refine le_trans h4 ?_
  -- collect
  have hbW : 0 ≤ b * W := mul_nonneg hb hW
  have key : b * W * (e * (1 + 10 / 2 ^ 53) + 10 / 2 ^ 53) +
      (b * W + b * W * (e * (1 + 10 / 2 ^ 53) + 10 / 2 ^ 53)) / 2 ^ 53 + 1 / 2 ^ 53 +
      ((b * W + 1) + (b * W * (e * (1 + 10 / 2 ^ 53) + 10 / 2 ^ 53) +
      (b * W + b * W * (e * (1 + 10 / 2 ^ 53) + 10 / 2 ^ 53)) / 2 ^ 53 + 1 / 2 ^ 53)) / 2 ^ 53 ≤ e * (b * W + 1) := by
    generalize b * W = z at *
    have hze : z * e ≤ z * 1 := mul_le_mul_of_nonneg_left he1 hbW
    have hmain : z * e * (13 / 2 ^ 53) + z * (13 / 2 ^ 53) + 3 / 2 ^ 53 ≤ e := by
      rw [he] at hze ⊢
      nlinarith
    have hze0 : 0 ≤ z * e := mul_nonneg hbW he0
    nlinarith
  calc _ = C * (b * W * (e * (1 + 10 / 2 ^ 53) + 10 / 2 ^ 53) +
      (b * W + b * W * (e * (1 + 10 / 2 ^ 53) + 10 / 2 ^ 53)) / 2 ^ 53 + 1 / 2 ^ 53 +
      ((b * W + 1) + (b * W * (e * (1 + 10 / 2 ^ 53) + 10 / 2 ^ 53) +
      (b * W + b * W * (e * (1 + 10 / 2 ^ 53) + 10 / 2 ^ 53)) / 2 ^ 53 + 1 / 2 ^ 53)) / 2 ^ 53) := by ring
    _ ≤ C * (e * (b * W + 1)) := mul_le_mul_of_nonneg_left key hC
    _ = _ := by ring

/-! ### The decay factor -/

theorem ewmBeta64_near (span : Nat) (h2 : 2 ≤ span) (hs : span ≤ 2 ^ 40) :
    |ewmBeta64 span - (1 - 2 / ((span : ℚ) + 1))| ≤ (1 - 2 / ((span : ℚ) + 1)) * (4 / 2 ^ 53) := by
  unfold ewmBeta64
  have hf : f64 ((span : ℚ) + 1) = (span : ℚ) + 1 := by
    have h := f64_int ((span : Int) + 1) (by rw [abs_of_nonneg (by omega)]; norm_num; omega)
    push_cast at h
    exact h
  rw [hf]
  have hq : (2 : ℚ) ≤ span := by exact_mod_cast h2
  have hA0 : 0 < 2 / ((span : ℚ) + 1) := by positivity
  have hA : 2 / ((span : ℚ) + 1) ≤ 2 / 3 := by
    rw [div_le_div_iff₀ (by linarith) (by norm_num)]; linarith
  generalize 2 / ((span : ℚ) + 1) = A at *
  have h1 := f64_relErr A
  rw [abs_of_pos hA0] at h1
  have h3 : |(1 - f64 A) - (1 - A)| ≤ A / 2 ^ 53 := by
    have : (1 - f64 A) - (1 - A) = -(f64 A - A) := by ring
    rw [this, abs_neg]; exact h1
  have h4 := f64_step h3 (abs_of_nonneg (by linarith : (0 : ℚ) ≤ 1 - A)).le
  refine le_trans h4 ?_
  nlinarith

theorem ewmBeta64_sq_near (span : Nat) (h2 : 2 ≤ span) (hs : span ≤ 2 ^ 40) :
    |f64 (ewmBeta64 span * ewmBeta64 span) - (1 - 2 / ((span : ℚ) + 1)) ^ 2| ≤ (1 - 2 / ((span : ℚ) + 1)) ^ 2 * (10 / 2 ^ 53) := by
  have h := ewmBeta64_near span h2 hs
  have hq : (2 : ℚ) ≤ span := by exact_mod_cast h2
  have hb : 0 < 1 - 2 / ((span : ℚ) + 1) := by
    rw [sub_pos, div_lt_one (by linarith)]; linarith
  generalize ewmBeta64 span = x at *
  generalize 1 - 2 / ((span : ℚ) + 1) = b at *
  have h1 : |x * x - b ^ 2| ≤ b ^ 2 * (81 / 10 / 2 ^ 53) := by
    have e : x * x - b ^ 2 = (x - b) * (x - b) + 2 * b * (x - b) := by ring
    rw [e]
    refine le_trans (abs_add_le _ _) ?_
    rw [abs_mul, abs_mul, abs_of_pos (by linarith : (0 : ℚ) < 2 * b)]
    have h3 : |x - b| * |x - b| ≤ (b * (4 / 2 ^ 53)) * (b * (4 / 2 ^ 53)) := mul_le_mul h h (abs_nonneg _) (by positivity)
    have h4 : 2 * b * |x - b| ≤ 2 * b * (b * (4 / 2 ^ 53)) := mul_le_mul_of_nonneg_left h (by linarith)
    have h5 : 0 < b ^ 2 := by positivity
    nlinarith
  have h2 := f64_step h1 (abs_of_nonneg (sq_nonneg b)).le
  refine le_trans h2 ?_
  have h5 : 0 < b ^ 2 := by positivity
  nlinarith

/-! ### The sums -/

/-- The accuracy of the sums. -/
def ewmEps (span : Nat) : ℚ := 30 / 2 ^ 53 * (((span : ℚ) + 1) / 2 + 1)

theorem ewmEps_le (span : Nat) (hs : span ≤ 2 ^ 40) : ewmEps span ≤ 1 / 100 := by
  unfold ewmEps
  have : (span : ℚ) ≤ 2 ^ 40 := by exact_mod_cast hs
  linarith

theorem ewmsState_bounds (ys : List ℚ) (b : ℚ) (hb0 : 0 ≤ b) (hb1 : b < 1) : ∀ t, t ≤ ys.length →
    0 ≤ (ewmsState (ys.map some) b t).sw ∧ (ewmsState (ys.map some) b t).sw * (1 - b) ≤ 1 ∧
    0 ≤ (ewmsState (ys.map some) b t).sw2 ∧ (ewmsState (ys.map some) b t).sw2 ≤ (ewmsState (ys.map some) b t).sw ∧
    (1 ≤ t → 1 ≤ (ewmsState (ys.map some) b t).sw) ∧
    (2 ≤ t → 2 * b * (ewmsState (ys.map some) b t).sw ^ 2 ≤
      (1 + b) ^ 2 * ((ewmsState (ys.map some) b t).sw ^ 2 - (ewmsState (ys.map some) b t).sw2)) := by
  intro t
  induction t with
  | zero => intro _; simp only [ewmsState]; norm_num
  | succ t ih =>
    intro ht
    obtain ⟨i1, i2, i3, i4, i5, i6⟩ := ih (by omega)
    have hv : (ys.map some).getD t none = some (ys.getD t 0) := by
      rw [List.getD_eq_getElem _ _ (by rw [List.length_map]; omega), List.getD_eq_getElem _ _ (by omega), List.getElem_map]
    have hone : t = 1 → (ewmsState (ys.map some) b t).sw = 1 ∧ (ewmsState (ys.map some) b t).sw2 = 1 := by
      rintro rfl
      have hv0 : (ys.map some).getD 0 none = some (ys.getD 0 0) := by
        rw [List.getD_eq_getElem _ _ (by rw [List.length_map]; omega), List.getD_eq_getElem _ _ (by omega), List.getElem_map]
      simp only [ewmsState, hv0, validWeight]
      norm_num
    simp only [ewmsState, hv, validWeight]
    generalize (ewmsState (ys.map some) b t).sw = w at *
    generalize (ewmsState (ys.map some) b t).sw2 = v at *
    have hbw : 0 ≤ b * w := mul_nonneg hb0 i1
    have hbv : 0 ≤ b ^ 2 * v := mul_nonneg (sq_nonneg _) i3
    refine ⟨by linarith, by nlinarith, by linarith, ?_, fun _ => by linarith, fun h => ?_⟩
    · have h1 : b ^ 2 * v ≤ b ^ 2 * w := mul_le_mul_of_nonneg_left i4 (sq_nonneg _)
      have h2 : b ^ 2 * w ≤ b * w := by
        rw [pow_two]
        nlinarith [mul_nonneg hbw (by linarith : (0 : ℚ) ≤ 1 - b)]
      linarith
    · have hw1 : 1 ≤ w := i5 (by omega)
      rcases Nat.lt_or_ge t 2 with h1 | h1
      · -- two observations
        have ht1 : t = 1 := by omega
        obtain ⟨e1, e2⟩ := hone ht1
        rw [e1, e2]
        nlinarith
      · have h6 := mul_le_mul_of_nonneg_left (i6 h1) (sq_nonneg b)
        have h7 : 0 ≤ 2 * b * (w - 1) := mul_nonneg (by linarith) (by linarith)
        have h8 : 0 ≤ 2 * b * b ^ 2 * w := by positivity
        nlinarith

theorem ewmsState64_near (ys : List ℚ) (M : ℚ) (hM : ∀ y ∈ ys, |y| ≤ M) (hM0 : 0 ≤ M) (span : Nat) (h2 : 2 ≤ span) (hs : span ≤ 2 ^ 40) :
    ∀ t, t ≤ ys.length →
    let E := ewmsState (ys.map some) (1 - 2 / ((span : ℚ) + 1)) t
    let F := ewmsState64 (ys.map some) (ewmBeta64 span) t
    |F.sw - E.sw| ≤ ewmEps span * (1 * E.sw) ∧ |F.sw2 - E.sw2| ≤ ewmEps span * (1 * E.sw2) ∧
    (|E.sy| ≤ M * E.sw ∧ |F.sy - E.sy| ≤ ewmEps span * (M * E.sw)) ∧
    (|E.sy2| ≤ M ^ 2 * E.sw ∧ |F.sy2 - E.sy2| ≤ ewmEps span * (M ^ 2 * E.sw)) := by
  have hq : (2 : ℚ) ≤ span := by exact_mod_cast h2
  have hb0 : 0 ≤ 1 - 2 / ((span : ℚ) + 1) := by
    rw [sub_nonneg, div_le_one (by linarith)]; linarith
  have hb1 : 1 - 2 / ((span : ℚ) + 1) < 1 := by
    have : 0 < 2 / ((span : ℚ) + 1) := by positivity
    linarith
  have hL : 1 - (1 - 2 / ((span : ℚ) + 1)) = 1 / (((span : ℚ) + 1) / 2) := by field_simp; ring
  have hb' : |ewmBeta64 span - (1 - 2 / ((span : ℚ) + 1))| ≤ (1 - 2 / ((span : ℚ) + 1)) * (10 / 2 ^ 53) :=
    le_trans (ewmBeta64_near span h2 hs) (mul_le_mul_of_nonneg_left (by norm_num) hb0)
  have hbb := ewmBeta64_sq_near span h2 hs
  have he := ewmEps_le span hs
  have hee : ewmEps span = 30 / 2 ^ 53 * (((span : ℚ) + 1) / 2 + 1) := rfl
  have hL0 : (0 : ℚ) < ((span : ℚ) + 1) / 2 := by linarith
  generalize ((span : ℚ) + 1) / 2 = L at *
  generalize ewmBeta64 span = b' at *
  generalize ewmEps span = e at *
  generalize 1 - 2 / ((span : ℚ) + 1) = b at *
  intro t
  induction t with
  | zero => intro _; simp [ewmsState, ewmsState64]
  | succ t ih =>
    intro ht
    obtain ⟨i1, i2, ⟨i3, i4⟩, i5, i6⟩ := ih (by omega)
    obtain ⟨w0, w1, w2, w3, _, _⟩ := ewmsState_bounds ys b hb0 hb1 t (by omega)
    have hv : (ys.map some).getD t none = some (ys.getD t 0) := by
      rw [List.getD_eq_getElem _ _ (by rw [List.length_map]; omega), List.getD_eq_getElem _ _ (by omega), List.getElem_map]
    have hy : |ys.getD t 0| ≤ M := by
      rw [List.getD_eq_getElem _ _ (by omega)]
      exact hM _ (List.getElem_mem _)
    simp only [ewmsState, ewmsState64, hv, validWeight, orZero, sqOrZero]
    generalize ewmsState (ys.map some) b t = E at *
    generalize ewmsState64 (ys.map some) b' t = F at *
    generalize ys.getD t 0 = y at *
    have hwL : E.sw ≤ L := by
      rw [hL, mul_one_div, div_le_one hL0] at w1
      exact w1
    have hbwL : b * E.sw ≤ L := by nlinarith
    have hbvL : b ^ 2 * E.sw2 ≤ L := by
      have : b ^ 2 ≤ 1 := by nlinarith
      nlinarith
    have hC1 : |(1 : ℚ) - 1| ≤ 1 / 2 ^ 53 := by norm_num
    have hCM : |y - y| ≤ M / 2 ^ 53 := by
      rw [sub_self, abs_zero]; positivity
    have hy2 : |y ^ 2| ≤ M ^ 2 := by
      rw [abs_pow]
      exact pow_le_pow_left₀ (abs_nonneg _) hy 2
    have hCM2 : |f64 (y ^ 2) - y ^ 2| ≤ M ^ 2 / 2 ^ 53 := le_trans (f64_relErr _) (by gcongr)
    have s1 := decay_step b b' E.sw F.sw 1 1 1 E.sw L e hb0 hb' (by norm_num) w0 hbwL hL0.le hee (by linarith)
      (by rw [abs_of_nonneg w0]; linarith) i1 (by norm_num) hC1
    have s2 := decay_step (b ^ 2) (f64 (b' * b')) E.sw2 F.sw2 1 1 1 E.sw2 L e (sq_nonneg _) hbb (by norm_num) w2 hbvL hL0.le hee
      (by linarith) (by rw [abs_of_nonneg w2]; linarith) i2 (by norm_num) hC1
    have s3 := decay_step b b' E.sy F.sy y y M E.sw L e hb0 hb' hM0 w0 hbwL hL0.le hee (by linarith) i3 i4 hy hCM
    have s4 := decay_step b b' E.sy2 F.sy2 (y ^ 2) (f64 (y ^ 2)) (M ^ 2) E.sw L e hb0 hb' (sq_nonneg _) w0 hbwL hL0.le hee
      (by linarith) i5 i6 hy2 hCM2
    exact ⟨s1.2, s2.2, s3, s4⟩

/-! ### The variance formula -/

theorem div_near {a A w W e B : ℚ} (hW : 0 < W) (hB : 0 ≤ B) (he : 1 / 2 ^ 50 ≤ e) (he1 : e ≤ 1 / 100) (hA : |A| ≤ B * W) (ha : |a - A| ≤ e * (B * W))
    (hw : |w - W| ≤ e * W) : |A / W| ≤ B ∧ |f64 (a / w) - A / W| ≤ 3 * e * B := by
  have h0 : |A / W| ≤ B := by
    rw [abs_div, abs_of_pos hW, div_le_iff₀ hW]; exact hA
  refine ⟨h0, ?_⟩
  have hw1 := abs_le.mp hw
  have heW : e * W ≤ 1 / 100 * W := mul_le_mul_of_nonneg_right he1 hW.le
  have hwpos : 99 / 100 * W ≤ w := by linarith [hw1.1]
  have hwp : 0 < w := lt_of_lt_of_le (by linarith) hwpos
  have h1 : |a / w - A / W| ≤ 203 / 100 * e * B := by
    have e1 : a / w - A / W = ((a - A) - A / W * (w - W)) / w := by
      field_simp; ring
    rw [e1, abs_div, abs_of_pos hwp, div_le_iff₀ hwp]
    have h2 : |A / W * (w - W)| ≤ B * (e * W) := by
      rw [abs_mul]; exact mul_le_mul h0 hw (abs_nonneg _) hB
    have h3 : |(a - A) - A / W * (w - W)| ≤ |a - A| + |A / W * (w - W)| := abs_sub _ _
    have h4 : 203 / 100 * e * B * (99 / 100 * W) ≤ 203 / 100 * e * B * w :=
      mul_le_mul_of_nonneg_left hwpos (by positivity)
    have h5 : 0 ≤ e * B * W := by positivity
    nlinarith
  have h2 := f64_step h1 h0
  refine le_trans h2 ?_
  have h5 : B / 2 ^ 50 ≤ e * B := by
    rw [div_eq_mul_one_div, mul_comm]
    exact mul_le_mul_of_nonneg_right he hB
  have h6 : e * B ≤ 1 / 100 * B := mul_le_mul_of_nonneg_right he1 hB
  have h7 : 0 ≤ e * B := by positivity
  linarith

theorem ewmVar_near (E F : EwmAcc ℚ) (M e : ℚ) (hM : 0 ≤ M) (he : 1 / 2 ^ 50 ≤ e) (he1 : e ≤ 1 / 100)
    (hW : 0 < E.sw) (hV0 : 0 ≤ E.sw2) (hD : 3 / 8 * E.sw ^ 2 ≤ E.sw ^ 2 - E.sw2)
    (hw : |F.sw - E.sw| ≤ e * E.sw) (hv : |F.sw2 - E.sw2| ≤ e * E.sw2)
    (hy0 : |E.sy| ≤ M * E.sw) (hy : |F.sy - E.sy| ≤ e * (M * E.sw))
    (hz0 : |E.sy2| ≤ M ^ 2 * E.sw) (hz : |F.sy2 - E.sy2| ≤ e * (M ^ 2 * E.sw))
    (hnn : 0 ≤ E.sy2 / E.sw - (E.sy / E.sw) ^ 2) :
    ∃ v V, ewmVar64 F = some v ∧ ewmVal (fun x => x) E = some V ∧ 0 ≤ v ∧ |v - V| ≤ 90 * e * M ^ 2 := by
  have hM2 : 0 ≤ M ^ 2 := sq_nonneg _
  have hw1 := abs_le.mp hw
  have heW : e * E.sw ≤ 1 / 100 * E.sw := mul_le_mul_of_nonneg_right he1 hW.le
  have hwpos : 99 / 100 * E.sw ≤ F.sw := by linarith [hw1.1]
  have hwp : 0 < F.sw := lt_of_lt_of_le (by linarith) hwpos
  obtain ⟨m0, m1⟩ := div_near hW hM he he1 hy0 hy hw
  obtain ⟨r0, r1⟩ := div_near hW hM2 he he1 hz0 hz hw
  have hV1 : E.sw2 ≤ E.sw * E.sw := by linarith [sq_nonneg E.sw]
  obtain ⟨d0, d1⟩ := div_near hW hW.le he he1 (by rw [abs_of_nonneg hV0]; exact hV1)
    (le_trans hv (mul_le_mul_of_nonneg_left hV1 (by linarith))) hw
  -- abbreviations
  obtain ⟨m, hm⟩ : ∃ m, m = f64 (F.sy / F.sw) := ⟨_, rfl⟩
  obtain ⟨r, hr⟩ : ∃ r, r = f64 (F.sy2 / F.sw) := ⟨_, rfl⟩
  obtain ⟨c, hc⟩ : ∃ c, c = f64 (F.sw2 / F.sw) := ⟨_, rfl⟩
  rw [← hm] at m1
  rw [← hr] at r1
  rw [← hc] at d1
  obtain ⟨μ, hμ⟩ : ∃ μ, μ = E.sy / E.sw := ⟨_, rfl⟩
  obtain ⟨ρ, hρ⟩ : ∃ ρ, ρ = E.sy2 / E.sw := ⟨_, rfl⟩
  obtain ⟨κ, hκ⟩ : ∃ κ, κ = E.sw2 / E.sw := ⟨_, rfl⟩
  rw [← hμ] at m0 m1 hnn
  rw [← hρ] at r0 r1 hnn
  rw [← hκ] at d0 d1
  have hκD : κ ≤ 5 / 8 * E.sw := by
    rw [hκ, div_le_iff₀ hW]; linarith
  have hκ0 : 0 ≤ κ := by rw [hκ]; positivity
  have heM2 : e * M ^ 2 ≤ 1 / 100 * M ^ 2 := mul_le_mul_of_nonneg_right he1 hM2
  have huM2 : M ^ 2 / 2 ^ 50 ≤ e * M ^ 2 := by
    rw [div_eq_mul_one_div, mul_comm]
    exact mul_le_mul_of_nonneg_right he hM2
  have huW : E.sw / 2 ^ 50 ≤ e * E.sw := by
    rw [div_eq_mul_one_div, mul_comm]
    exact mul_le_mul_of_nonneg_right he hW.le
  have hu : (0 : ℚ) < 1 / 2 ^ 50 := by norm_num
  have he0 : 0 < e := lt_of_lt_of_le hu he
  -- square of the mean
  have q1 : |m * m - μ ^ 2| ≤ 61 / 10 * e * M ^ 2 := by
    have e1 : m * m - μ ^ 2 = (m - μ) * (m - μ) + 2 * μ * (m - μ) := by ring
    rw [e1]
    refine le_trans (abs_add_le _ _) ?_
    rw [abs_mul, abs_mul, abs_mul, abs_of_pos (by norm_num : (0 : ℚ) < 2)]
    have a1 : |m - μ| * |m - μ| ≤ (3 * e * M) * (3 * e * M) := mul_le_mul m1 m1 (abs_nonneg _) (by positivity)
    have a2 : |μ| * |m - μ| ≤ M * (3 * e * M) := mul_le_mul m0 m1 (abs_nonneg _) hM
    have a3 : e * (e * M ^ 2) ≤ 1 / 100 * (e * M ^ 2) := mul_le_mul_of_nonneg_right he1 (by positivity)
    linarith
  have hμ2 : |μ ^ 2| ≤ M ^ 2 := by rw [abs_pow]; exact pow_le_pow_left₀ (abs_nonneg _) m0 2
  have q2 : |f64 (m * m) - μ ^ 2| ≤ 7 * e * M ^ 2 := by
    refine le_trans (f64_step q1 hμ2) ?_
    linarith
  -- the raw variance
  have hA1 : ρ - μ ^ 2 ≤ M ^ 2 := by
    have := abs_le.mp r0
    linarith [sq_nonneg μ]
  have q3 : |r - f64 (m * m) - (ρ - μ ^ 2)| ≤ 10 * e * M ^ 2 := by
    have e1 : r - f64 (m * m) - (ρ - μ ^ 2) = (r - ρ) - (f64 (m * m) - μ ^ 2) := by ring
    rw [e1]
    refine le_trans (abs_sub _ _) ?_
    linarith
  have q4 : |f64 (r - f64 (m * m)) - (ρ - μ ^ 2)| ≤ 11 * e * M ^ 2 := by
    refine le_trans (f64_step q3 (B := M ^ 2) (by rw [abs_of_nonneg hnn]; exact hA1)) ?_
    linarith
  -- times the weight
  have q5 : |f64 (r - f64 (m * m)) * F.sw - (ρ - μ ^ 2) * E.sw| ≤ 122 / 10 * e * (M ^ 2 * E.sw) := by
    have e1 : f64 (r - f64 (m * m)) * F.sw - (ρ - μ ^ 2) * E.sw =
      (f64 (r - f64 (m * m)) - (ρ - μ ^ 2)) * F.sw + (ρ - μ ^ 2) * (F.sw - E.sw) := by ring
    rw [e1]
    refine le_trans (abs_add_le _ _) ?_
    rw [abs_mul, abs_mul, abs_of_pos hwp, abs_of_nonneg hnn]
    have a0 : F.sw ≤ 101 / 100 * E.sw := by linarith [hw1.2]
    have a1 : |f64 (r - f64 (m * m)) - (ρ - μ ^ 2)| * F.sw ≤ (11 * e * M ^ 2) * (101 / 100 * E.sw) :=
      mul_le_mul q4 a0 hwp.le (by positivity)
    have a2 : (ρ - μ ^ 2) * |F.sw - E.sw| ≤ M ^ 2 * (e * E.sw) := mul_le_mul hA1 hw (abs_nonneg _) hM2
    have a3 : 0 ≤ e * (M ^ 2 * E.sw) := by positivity
    linarith
  have hNb : |(ρ - μ ^ 2) * E.sw| ≤ M ^ 2 * E.sw := by
    rw [abs_mul, abs_of_nonneg hnn, abs_of_pos hW]
    exact mul_le_mul_of_nonneg_right hA1 hW.le
  have huMW : M ^ 2 * E.sw / 2 ^ 50 ≤ e * (M ^ 2 * E.sw) := by
    rw [div_eq_mul_one_div, mul_comm]
    exact mul_le_mul_of_nonneg_right he (by positivity)
  have heMW : e * (M ^ 2 * E.sw) ≤ 1 / 100 * (M ^ 2 * E.sw) := mul_le_mul_of_nonneg_right he1 (by positivity)
  have q6 : |f64 (f64 (r - f64 (m * m)) * F.sw) - (ρ - μ ^ 2) * E.sw| ≤ 13 * e * (M ^ 2 * E.sw) := by
    refine le_trans (f64_step q5 hNb) ?_
    have : 0 ≤ e * (M ^ 2 * E.sw) := by positivity
    linarith
  -- the bias correction
  have p1 : |F.sw - c - (E.sw - κ)| ≤ 4 * e * E.sw := by
    have e1 : F.sw - c - (E.sw - κ) = (F.sw - E.sw) - (c - κ) := by ring
    rw [e1]
    refine le_trans (abs_sub _ _) ?_
    linarith
  have p2 : |f64 (F.sw - c) - (E.sw - κ)| ≤ 5 * e * E.sw := by
    refine le_trans (f64_step p1 (B := E.sw) (by rw [abs_of_nonneg (by linarith)]; linarith)) ?_
    linarith
  obtain ⟨n, hn⟩ : ∃ n, n = f64 (f64 (r - f64 (m * m)) * F.sw) := ⟨_, rfl⟩
  obtain ⟨d, hd⟩ : ∃ d, d = f64 (F.sw - c) := ⟨_, rfl⟩
  rw [← hn] at q6
  rw [← hd] at p2
  have hdW : 325 / 1000 * E.sw ≤ d := by
    have := (abs_le.mp p2).1
    linarith
  have hdp : 0 < d := lt_of_lt_of_le (by linarith) hdW
  have hDW : 3 / 8 * E.sw ≤ E.sw - κ := by linarith
  have hDp : 0 < E.sw - κ := by linarith
  -- the quotient
  have hVb : |(ρ - μ ^ 2) * E.sw / (E.sw - κ)| ≤ 8 / 3 * M ^ 2 := by
    rw [abs_div, abs_of_pos hDp, div_le_iff₀ hDp]
    refine le_trans hNb ?_
    linarith [mul_le_mul_of_nonneg_left hDW hM2]
  have q7 : |n / d - (ρ - μ ^ 2) * E.sw / (E.sw - κ)| ≤ 82 * e * M ^ 2 := by
    have e1 : n / d - (ρ - μ ^ 2) * E.sw / (E.sw - κ) =
      ((n - (ρ - μ ^ 2) * E.sw) - (ρ - μ ^ 2) * E.sw / (E.sw - κ) * (d - (E.sw - κ))) / d := by
      field_simp; ring
    rw [e1, abs_div, abs_of_pos hdp, div_le_iff₀ hdp]
    refine le_trans (abs_sub _ _) ?_
    rw [abs_mul]
    have a1 := mul_le_mul hVb p2 (abs_nonneg _) (by positivity)
    have a2 : 82 * e * M ^ 2 * (325 / 1000 * E.sw) ≤ 82 * e * M ^ 2 * d := mul_le_mul_of_nonneg_left hdW (by positivity)
    have a3 : 0 ≤ e * (M ^ 2 * E.sw) := by positivity
    linarith
  have q8 : |f64 (n / d) - (ρ - μ ^ 2) * E.sw / (E.sw - κ)| ≤ 90 * e * M ^ 2 := by
    refine le_trans (f64_step q7 hVb) ?_
    linarith
  have hVnn : 0 ≤ (ρ - μ ^ 2) * E.sw / (E.sw - κ) := div_nonneg (mul_nonneg hnn hW.le) hDp.le
  refine ⟨max (f64 (n / d)) 0, max ((ρ - μ ^ 2) * E.sw / (E.sw - κ)) 0, ?_, ?_, le_max_right _ _, ?_⟩
  · unfold ewmVar64
    rw [if_pos hwp]
    simp only [← hm, ← hr, ← hc, ← hn, ← hd]
    rw [if_pos hdp]
  · unfold ewmVal
    rw [if_pos hW]
    simp only [← hμ, ← hρ, ← hκ]
    rw [if_pos hDp]
  · rw [max_eq_left hVnn]
    rcases le_total (f64 (n / d)) 0 with h | h
    · rw [max_eq_right h]
      refine le_trans ?_ q8
      rw [abs_of_nonpos (by linarith), abs_of_nonpos (by linarith)]
      linarith
    · rw [max_eq_left h]
      exact q8

/-- The weighted sum of squares about any centre is not negative. -/
theorem ewmsState_sq (y : List (Option ℚ)) (b : ℚ) (hb : 0 ≤ b) (x : ℚ) : ∀ t,
    0 ≤ (ewmsState y b t).sy2 - 2 * x * (ewmsState y b t).sy + x ^ 2 * (ewmsState y b t).sw := by
  intro t
  induction t with
  | zero => simp [ewmsState]
  | succ t ih =>
    simp only [ewmsState]
    have h := mul_nonneg hb ih
    cases y.getD t none with
    | none => simp only [validWeight, orZero, sqOrZero]; linarith
    | some v => simp only [validWeight, orZero, sqOrZero]; linarith [sq_nonneg (v - x)]

/-- **C100.** For complete series the float64 variance exists from the second observation on, is not negative, and differs from
the exact one (C38) by at most `1350 (span + 3) M^2 / 2^53`, where `M` bounds the observations. -/
theorem C100_complete (ys : List ℚ) (M : ℚ) (hM : ∀ y ∈ ys, |y| ≤ M) (span : Nat) (h2 : 2 ≤ span) (hs : span ≤ 2 ^ 40)
    (t : Nat) (ht1 : 1 ≤ t) (ht : t < ys.length) :
    ∃ v V, (ewmsVar64 (ys.map some) span)[t]? = some (some v) ∧ (ewms (fun x => x) (ys.map some) span)[t]? = some (some V) ∧
      0 ≤ v ∧ |v - V| ≤ 1350 * ((span : ℚ) + 3) * M ^ 2 / 2 ^ 53 := by
  have hM0 : 0 ≤ M := le_trans (abs_nonneg _) (hM _ (List.getElem_mem (by omega : 0 < ys.length)))
  obtain ⟨i1, i2, ⟨i3, i4⟩, i5, i6⟩ := ewmsState64_near ys M hM hM0 span h2 hs (t + 1) (by omega)
  have hq : (2 : ℚ) ≤ span := by exact_mod_cast h2
  have hb0 : 1 / 3 ≤ 1 - 2 / ((span : ℚ) + 1) := by
    have : 2 / ((span : ℚ) + 1) ≤ 2 / 3 := by
      rw [div_le_div_iff₀ (by linarith) (by norm_num)]; linarith
    linarith
  have hb1 : 1 - 2 / ((span : ℚ) + 1) < 1 := by
    have : 0 < 2 / ((span : ℚ) + 1) := by positivity
    linarith
  obtain ⟨_, _, w2, _, w4, w5⟩ := ewmsState_bounds ys _ (by linarith : (0 : ℚ) ≤ _) hb1 (t + 1) (by omega)
  have hsq := fun x => ewmsState_sq (ys.map some) _ (by linarith : (0 : ℚ) ≤ 1 - 2 / ((span : ℚ) + 1)) x (t + 1)
  have hEeq : (ewms (fun x => x) (ys.map some) span)[t]? =
      some (ewmVal (fun x => x) (ewmsState (ys.map some) (1 - 2 / ((span : ℚ) + 1)) (t + 1))) := by
    unfold ewms
    rw [if_neg (by omega)]
    simp only
    rw [tabulate_get?, if_pos (by rw [List.length_map]; exact ht)]
  have hFeq : (ewmsVar64 (ys.map some) span)[t]? = some (ewmVar64 (ewmsState64 (ys.map some) (ewmBeta64 span) (t + 1))) := by
    unfold ewmsVar64
    rw [if_neg (by omega), tabulate_get?, if_pos (by rw [List.length_map]; exact ht)]
  rw [hEeq, hFeq]
  generalize ewmsState (ys.map some) (1 - 2 / ((span : ℚ) + 1)) (t + 1) = E at *
  generalize ewmsState64 (ys.map some) (ewmBeta64 span) (t + 1) = F at *
  generalize 1 - 2 / ((span : ℚ) + 1) = b at *
  have hW : 0 < E.sw := by linarith [w4 (by omega)]
  have hD : 3 / 8 * E.sw ^ 2 ≤ E.sw ^ 2 - E.sw2 := by
    have h6 := w5 (by omega)
    generalize E.sw ^ 2 - E.sw2 = P at *
    have hsq0 : 0 < E.sw ^ 2 := by positivity
    have hP : 0 ≤ P := by
      by_contra hc
      have : (1 + b) ^ 2 * P ≤ 0 := mul_nonpos_of_nonneg_of_nonpos (sq_nonneg _) (not_le.mp hc).le
      have : 0 < 2 * b * E.sw ^ 2 := by positivity
      linarith
    have h7 : (1 + b) ^ 2 ≤ 16 / 3 * b := by nlinarith
    have h8 := mul_le_mul_of_nonneg_right h7 hP
    have h9 : b * (3 / 8 * E.sw ^ 2) ≤ b * P := by linarith
    exact le_of_mul_le_mul_left h9 (by linarith)
  have hnn : 0 ≤ E.sy2 / E.sw - (E.sy / E.sw) ^ 2 := by
    have h := hsq (E.sy / E.sw)
    have e1 : E.sy2 - 2 * (E.sy / E.sw) * E.sy + (E.sy / E.sw) ^ 2 * E.sw = (E.sy2 / E.sw - (E.sy / E.sw) ^ 2) * E.sw := by
      field_simp; ring
    rw [e1] at h
    exact nonneg_of_mul_nonneg_left h hW
  have hee : 1 / 2 ^ 50 ≤ ewmEps span := by
    unfold ewmEps; linarith
  rw [one_mul] at i1 i2
  obtain ⟨v, V, e1, e2, e3, e4⟩ := ewmVar_near E F M (ewmEps span) hM0 hee (ewmEps_le span hs) hW w2 hD i1 i2 i3 i4 i5 i6 hnn
  refine ⟨v, V, by rw [e1], by rw [e2], e3, le_trans e4 (le_of_eq ?_)⟩
  unfold ewmEps
  ring

example : (∀ y ∈ ([1, -2, 4] : List ℚ), |y| ≤ 4) ∧ (ewmsVar64 (([1, -2, 4] : List ℚ).map some) 3)[2]? ≠ some none := by decide +kernel

/-- **C100.** The float64 mean differs from the exact one (C32) by at most `45 (span + 3) M / 2^53`. -/
theorem C100_mean (ys : List ℚ) (M : ℚ) (hM : ∀ y ∈ ys, |y| ≤ M) (span : Nat) (h1 : 1 ≤ span) (hs : span ≤ 2 ^ 40) :
    ∃ a A, ewma64 ys span = .ok a ∧ ewma ys span = .ok A ∧ ∀ t, t < ys.length →
      ∃ x X, a[t]? = some x ∧ A[t]? = some X ∧ |x - X| ≤ 45 * ((span : ℚ) + 3) * M / 2 ^ 53 := by
  refine ⟨_, _, by unfold ewma64; rw [if_neg (by omega)], by unfold ewma; rw [if_neg (by omega)], fun t ht => ?_⟩
  rw [tabulate_get?, if_pos ht, tabulate_get?, if_pos ht]
  refine ⟨_, _, rfl, rfl, ?_⟩
  have hM0 : 0 ≤ M := le_trans (abs_nonneg _) (hM _ (List.getElem_mem (by omega : 0 < ys.length)))
  have hq : (1 : ℚ) ≤ span := by exact_mod_cast h1
  have hb0 : 0 ≤ 1 - 2 / ((span : ℚ) + 1) := by
    rw [sub_nonneg, div_le_one (by linarith)]; linarith
  have hb1 : 1 - 2 / ((span : ℚ) + 1) < 1 := by
    have : 0 < 2 / ((span : ℚ) + 1) := by positivity
    linarith
  have hL : 1 - (1 - 2 / ((span : ℚ) + 1)) = 1 / (((span : ℚ) + 1) / 2) := by field_simp; ring
  have hb' : |ewmBeta64 span - (1 - 2 / ((span : ℚ) + 1))| ≤ (1 - 2 / ((span : ℚ) + 1)) * (10 / 2 ^ 53) := by
    rcases Nat.lt_or_ge span 2 with h | h
    · have : span = 1 := by omega
      subst this
      have e : ewmBeta64 1 = 0 := by decide +kernel
      rw [e]; norm_num
    · exact le_trans (ewmBeta64_near span h hs) (mul_le_mul_of_nonneg_left (by norm_num) hb0)
  have he := ewmEps_le span hs
  have hee : ewmEps span = 30 / 2 ^ 53 * (((span : ℚ) + 1) / 2 + 1) := rfl
  have hee2 : 1 / 2 ^ 50 ≤ ewmEps span := by rw [hee]; linarith
  have hfin : 3 * ewmEps span * M = 45 * ((span : ℚ) + 3) * M / 2 ^ 53 := by rw [hee]; ring
  rw [← hfin]
  have hL0 : (0 : ℚ) < ((span : ℚ) + 1) / 2 := by linarith
  generalize ((span : ℚ) + 1) / 2 = L at *
  generalize ewmBeta64 span = b' at *
  generalize ewmEps span = e at *
  generalize 1 - 2 / ((span : ℚ) + 1) = b at *
  have key : ∀ t, t < ys.length →
      (1 ≤ (ewmaState ys b t).2 ∧ (ewmaState ys b t).2 * (1 - b) ≤ 1) ∧
      |(ewmaState64 ys b' t).2 - (ewmaState ys b t).2| ≤ e * (1 * (ewmaState ys b t).2) ∧
      |(ewmaState ys b t).1| ≤ M * (ewmaState ys b t).2 ∧
      |(ewmaState64 ys b' t).1 - (ewmaState ys b t).1| ≤ e * (M * (ewmaState ys b t).2) := by
    intro t
    induction t with
    | zero =>
      intro h
      have hy : |ys.getD 0 0| ≤ M := by
        rw [List.getD_eq_getElem _ _ h]
        exact hM _ (List.getElem_mem _)
      simp only [ewmaState, ewmaState64, sub_self, abs_zero]
      refine ⟨⟨le_rfl, by linarith⟩, by positivity, by linarith, by positivity⟩
    | succ t ih =>
      intro h
      obtain ⟨⟨i0, i1⟩, i2, i3, i4⟩ := ih (by omega)
      have hy : |ys.getD (t + 1) 0| ≤ M := by
        rw [List.getD_eq_getElem _ _ h]
        exact hM _ (List.getElem_mem _)
      simp only [ewmaState, ewmaState64]
      generalize (ewmaState ys b t).1 = U at *
      generalize (ewmaState ys b t).2 = W at *
      generalize (ewmaState64 ys b' t).1 = u at *
      generalize (ewmaState64 ys b' t).2 = w at *
      generalize ys.getD (t + 1) 0 = y at *
      have hwL : W ≤ L := by
        rw [hL, mul_one_div, div_le_one hL0] at i1
        exact i1
      have hbwL : b * W ≤ L := by nlinarith
      have hbW : 0 ≤ b * W := mul_nonneg hb0 (by linarith)
      have s1 := decay_step b b' W w 1 1 1 W L e hb0 hb' (by norm_num) (by linarith) hbwL hL0.le hee (by linarith)
        (by rw [abs_of_nonneg (by linarith)]; linarith) i2 (by norm_num) (by norm_num)
      have s2 := decay_step b b' U u y y M W L e hb0 hb' hM0 (by linarith) hbwL hL0.le hee (by linarith) i3 i4 hy
        (by rw [sub_self, abs_zero]; positivity)
      rw [add_comm (1 : ℚ), add_comm (1 : ℚ), add_comm y, add_comm y]
      exact ⟨⟨by linarith, by nlinarith⟩, s1.2, s2.1, s2.2⟩
  obtain ⟨⟨k0, _⟩, k1, k2, k3⟩ := key t ht
  rw [one_mul] at k1
  exact (div_near (by linarith) hM0 hee2 he k2 k3 k1).2

example : (∀ y ∈ ([1, -2, 4] : List ℚ), |y| ≤ 4) ∧ 3 ≤ 2 ^ 40 ∧ (ewma64 [1, -2, 4] 3).isOk = true := by decide +kernel

/-- **C100.** Violation: the float64 mean of a constant series can lie below or above it. -/
theorem C100_mean_of_constant :
    (∃ x, ewma64 [3, 3] 2 = .ok [3, x] ∧ x < 3) ∧
    (∃ x, ewma64 [f64 (1 / 10), f64 (1 / 10)] 3 = .ok [f64 (1 / 10), x] ∧ f64 (1 / 10) < x) :=
  ⟨⟨f64 (29999999999999996 / 10 ^ 16), by decide +kernel, by decide +kernel⟩,
    ⟨f64 (10000000000000002 / 10 ^ 17), by decide +kernel, by decide +kernel⟩⟩

/-- **C100.** At the first observation the result is missing. -/
theorem C100_first (y : ℚ) (ys : List (Option ℚ)) (span : Nat) : (ewmsVar64 (some y :: ys) span)[0]? = some none := by
  unfold ewmsVar64
  split
  · rw [tabulate_get?, if_pos (by simp)]
  · rw [tabulate_get?, if_pos (by simp)]
    have h1 : f64 1 = 1 := f64_one_val
    have h : (ewmsState64 (some y :: ys) (ewmBeta64 span) 1).sw = 1 ∧ (ewmsState64 (some y :: ys) (ewmBeta64 span) 1).sw2 = 1 := by
      simp [ewmsState64, validWeight, f64_zero, h1]
    unfold ewmVar64
    simp only
    rw [h.1, h.2, div_one, h1, sub_self, f64_zero]
    norm_num

/-- **C100.** A single observation followed by missing ones has no deviation in exact arithmetic. -/
theorem C100_single_exact (y b : ℚ) (hb : 0 < b) (n : Nat) :
    ewmVal (fun x => x) (ewmsState (some y :: List.replicate n none) b (n + 1)) = none := by
  have h : ∀ k, k ≤ n → (ewmsState (some y :: List.replicate n none) b (k + 1)).sw = b ^ k ∧
      (ewmsState (some y :: List.replicate n none) b (k + 1)).sw2 = b ^ (2 * k) := by
    intro k
    induction k with
    | zero => intro _; simp [ewmsState, validWeight]
    | succ k ih =>
      intro hk
      obtain ⟨h1, h2⟩ := ih (by omega)
      have hv : (some y :: List.replicate n none).getD (k + 1) none = none := by
        rw [List.getD_cons_succ, List.getD_eq_getElem _ _ (by rw [List.length_replicate]; omega), List.getElem_replicate]
      rw [ewmsState]
      simp only [h1, h2, hv, validWeight]
      constructor <;> ring
  obtain ⟨h1, h2⟩ := h n le_rfl
  have hp : 0 < b ^ n := by positivity
  unfold ewmVal
  rw [h1, h2, if_pos hp]
  have e : b ^ n - b ^ (2 * n) / b ^ n = 0 := by
    rw [two_mul, pow_add]; field_simp; ring
  rw [e]
  norm_num

example : ewmVal (fun x => x) (ewmsState (some 3 :: List.replicate 2 none) (1 / 2 : ℚ) 3) = none ∧ (ewmsState [some 3, none, none] (1 / 2 : ℚ) 3).sw = 1 / 4 := by
  decide +kernel

/-- **C100.** Violation: in float64 the bias correction of a single observation does not cancel; with span 14 the value 0.1
followed by two gaps gets a variance above its own square. -/
theorem C100_single_noise :
    ∃ v, ewmsVar64 [some (f64 (1 / 10)), none, none] 14 = [none, none, some v] ∧ (1 / 10) ^ 2 < v :=
  ⟨6765407440227679 / 576460752303423488, by decide +kernel, by norm_num⟩

/-- **C100.** Violation: the first value of the time-decayed deviation, zero (hence the floor) in exact arithmetic, can be larger than
the observation: decay factor 0.16, observation 0.3. -/
theorem C100_time_decayed_noise :
    (∃ v, ewmstVars64 ⟨0, 0, 0, 0⟩ [(f64 (16 / 100), some (f64 (3 / 10)))] = [some v] ∧ (3 / 10) ^ 2 < v) ∧
    ewmst (fun x => x) (fun _ => f64 (16 / 100)) 0 [0, 1] [none, some (f64 (3 / 10))] = [none, some 0] :=
  ⟨⟨7566047373982433 / 72057594037927936, by decide +kernel, by norm_num⟩, by decide +kernel⟩

/-- **C100.** A constant series need not have variance zero. -/
theorem C100_constant_noise : ewmsVar64 [some (f64 (3 / 10)), some (f64 (3 / 10))] 3 = [none, some (9 / 288230376151711744)] := by
  decide +kernel

/-! ### Non-vacuity -/

/-- The bound for two returns of two per cent and span 20 is below `2e-15`. -/
example : ∃ v V, (ewmsVar64 ([1 / 50, -1 / 50].map some) 20)[1]? = some (some v) ∧
    (ewms (fun x : ℚ => x) (([1 / 50, -1 / 50] : List ℚ).map some) 20)[1]? = some (some V) ∧ 0 ≤ v ∧ |v - V| ≤ 2 / 10 ^ 15 := by
  obtain ⟨v, V, a, b, c, d⟩ := C100_complete [1 / 50, -1 / 50] (1 / 50) (by
    intro y hy
    simp only [List.mem_cons, List.not_mem_nil, or_false] at hy
    rcases hy with rfl | rfl <;> norm_num [abs_le]) 20 (by norm_num) (by norm_num) 1 (by norm_num) (by norm_num)
  exact ⟨v, V, a, b, c, le_trans d (by norm_num)⟩

example : ewms (fun x => x) [some (f64 (1 / 10)), none, none] 14 = [none, none, none] := by decide +kernel

end FinML
