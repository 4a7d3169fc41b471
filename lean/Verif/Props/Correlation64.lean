/-
C136: the price–volume correlation in float64.
-/
import Verif.Model.Float64Correlation
import Verif.Props.Correlation
import Verif.Props.Balance64
import Verif.Props.Returns64
import Mathlib.Analysis.Real.Sqrt

set_option linter.unusedSectionVars false

namespace FinML

/-! ### Sums of products of deviations -/

/-- A rounded sum of terms that are each off by a factor. -/
theorem sum64_terms_error {α : Type} (t v : α → ℚ) (P : ℚ) (hP : 1 ≤ P) (l : List α) (h : ∀ a ∈ l, |t a - v a| ≤ (P - 1) * |v a|) :
    |sum64 (l.map t) - (l.map v).sum| ≤ (P * (1 + 1 / 2 ^ 53) ^ l.length - 1) * (l.map (fun a => |v a|)).sum := by
  have a := (sum64_abs_error (l.map t)).1
  have hA' := (abs_nonneg _).trans (sum64_abs_error (l.map t)).2
  rw [List.length_map, List.map_map] at a
  rw [List.map_map] at hA'
  have b : |(l.map t).sum - (l.map v).sum| ≤ (P - 1) * (l.map (fun a => |v a|)).sum ∧
      (l.map ((fun x => |x|) ∘ t)).sum ≤ P * (l.map (fun a => |v a|)).sum := by
    clear a hA'
    induction l with
    | nil => simp
    | cons x l ih =>
      obtain ⟨i1, i2⟩ := ih (fun a ha => h a (by simp [ha]))
      have r := h x (by simp)
      simp only [List.map_cons, List.sum_cons, Function.comp_def] at *
      constructor
      · have t1 := abs_add_le (t x - v x) ((l.map t).sum - (l.map v).sum)
        rw [sub_add_sub_comm] at t1
        linarith
      · have t1 := abs_add_le (t x - v x) (v x)
        rw [sub_add_cancel] at t1
        linarith
  have p1 : (1 : ℚ) ≤ (1 + 1 / 2 ^ 53) ^ l.length := one_le_pow₀ (by norm_num)
  generalize (1 + 1 / 2 ^ 53 : ℚ) ^ l.length = Q at *
  generalize (l.map (fun a => |v a|)).sum = A at *
  generalize (l.map ((fun x => |x|) ∘ t)).sum = A' at *
  have c : (Q - 1) * A' ≤ (Q - 1) * (P * A) := mul_le_mul_of_nonneg_left b.2 (by linarith)
  have t1 := abs_add_le (sum64 (l.map t) - (l.map t).sum) ((l.map t).sum - (l.map v).sum)
  rw [sub_add_sub_cancel] at t1
  have f : (P * Q - 1) * A = (Q - 1) * (P * A) + (P - 1) * A := by ring
  linarith [b.1]

/-- A rounded product of two rounded numbers. -/
theorem prod64_error (a b : ℚ) : |f64 (f64 a * f64 b) - a * b| ≤ ((1 + 1 / 2 ^ 53) ^ 3 - 1) * |a * b| := by
  have ha := (rounds_f64 (abs_nonneg a))
  have hb := (rounds_f64 (abs_nonneg b))
  have h := ((ha.mul (abs_nonneg a) (abs_nonneg b) hb).f64 (mul_nonneg (abs_nonneg a) (abs_nonneg b)))
  have h0 := mul_nonneg (abs_nonneg a) (abs_nonneg b)
  have e := rounds_abs h0 h
  rw [f64_abs, f64_abs, ← abs_mul, ← abs_mul, f64_abs] at e
  -- the rounded product has the sign of the product
  have hs : 0 ≤ f64 (f64 a * f64 b) * (a * b) := by
    rcases le_total 0 a with h1 | h1 <;> rcases le_total 0 b with h2 | h2
    · exact mul_nonneg (f64_nonneg (mul_nonneg (f64_nonneg h1) (f64_nonneg h2))) (mul_nonneg h1 h2)
    · have n2 : 0 ≤ -f64 b := by rw [← f64_neg]; exact f64_nonneg (by linarith)
      have : 0 ≤ -f64 (f64 a * f64 b) := by
        rw [← f64_neg]; apply f64_nonneg; have := mul_nonneg (f64_nonneg h1) n2; linarith
      have := mul_nonneg this (show 0 ≤ -(a * b) by have := mul_nonneg h1 (neg_nonneg.mpr h2); linarith)
      linarith
    · have n1 : 0 ≤ -f64 a := by rw [← f64_neg]; exact f64_nonneg (by linarith)
      have : 0 ≤ -f64 (f64 a * f64 b) := by
        rw [← f64_neg]; apply f64_nonneg; have := mul_nonneg n1 (f64_nonneg h2); linarith
      have := mul_nonneg this (show 0 ≤ -(a * b) by have := mul_nonneg (neg_nonneg.mpr h1) h2; linarith)
      linarith
    · have n1 : 0 ≤ -f64 a := by rw [← f64_neg]; exact f64_nonneg (by linarith)
      have n2 : 0 ≤ -f64 b := by rw [← f64_neg]; exact f64_nonneg (by linarith)
      refine mul_nonneg (f64_nonneg ?_) (mul_nonneg_of_nonpos_of_nonpos h1 h2)
      have := mul_nonneg n1 n2
      linarith
  generalize f64 (f64 a * f64 b) = x at *
  generalize a * b = y at *
  have : |x - y| = abs (|x| - |y|) := by
    rcases le_or_gt 0 y with h1 | h1
    · rcases h1.eq_or_lt with h2 | h2
      · rw [← h2]; simp
      · rw [abs_of_pos h2, abs_of_nonneg (nonneg_of_mul_nonneg_left hs h2)]
    · have hx : x ≤ 0 := by by_contra hx; have := mul_neg_of_pos_of_neg (not_le.mp hx) h1; linarith
      rw [abs_of_neg h1, abs_of_nonpos hx, ← abs_neg]; congr 1; ring
  rw [this]
  exact e

theorem devSum64_error (l : List (ℚ × ℚ)) (m n : ℚ) :
    |devSum64 l m n - (l.map (fun p => (p.1 - m) * (p.2 - n))).sum| ≤
      ((1 + 1 / 2 ^ 53) ^ (l.length + 3) - 1) * (l.map (fun p => |(p.1 - m) * (p.2 - n)|)).sum := by
  have := sum64_terms_error (fun p : ℚ × ℚ => f64 (f64 (p.1 - m) * f64 (p.2 - n))) (fun p => (p.1 - m) * (p.2 - n)) ((1 + 1 / 2 ^ 53) ^ 3)
    (one_le_pow₀ (by norm_num)) l (fun p _ => prod64_error _ _)
  rw [← pow_add, Nat.add_comm 3] at this
  exact this

/-- The sum of rounded squares of rounded deviations. -/
theorem devSum64_sq (l : List (ℚ × ℚ)) (f : ℚ × ℚ → ℚ) (m : ℚ) :
    Rounds (l.length + 3) (l.map (fun p => (f p - m) * (f p - m))).sum (devSum64 (l.map (fun p => (f p, f p))) m m) ∧
    0 ≤ (l.map (fun p => (f p - m) * (f p - m))).sum := by
  have h0 : ∀ p ∈ l.map (fun p => (f p - m) * (f p - m)), 0 ≤ p := by
    intro p hp; rw [List.mem_map] at hp; obtain ⟨q, _, rfl⟩ := hp; exact mul_self_nonneg _
  refine ⟨?_, List.sum_nonneg h0⟩
  unfold devSum64
  rw [List.map_map]
  have h : RoundsAll 3 (l.map (fun p => (f p - m) * (f p - m))) (l.map ((fun p : ℚ × ℚ => f64 (f64 (p.1 - m) * f64 (p.2 - m))) ∘ fun p => (f p, f p))) := by
    unfold RoundsAll
    rw [List.forall₂_map_left_iff, List.forall₂_map_right_iff, List.forall₂_same]
    intro p _
    have := (rounds_sq (f p - m)).f64 (sq_nonneg _)
    rw [sq] at this
    exact this
  have := h.sum64 h0
  rw [List.length_map, Nat.add_comm] at this
  exact this

/-- Deviations from another centre. -/
theorem crossDev_shift (f g : ℚ × ℚ → ℚ) (l : List (ℚ × ℚ)) (hl : 0 < l.length) (m n : ℚ) :
    (l.map (fun p => (f p - m) * (g p - n))).sum =
      crossDev f g l + l.length * (((l.map f).sum / l.length - m) * ((l.map g).sum / l.length - n)) := by
  have e : ∀ (t : List (ℚ × ℚ)) (a b : ℚ), (t.map (fun p => (f p - a) * (g p - b))).sum =
      (t.map (fun p => f p * g p)).sum - a * (t.map g).sum - b * (t.map f).sum + t.length * (a * b) := by
    intro t a b
    induction t with
    | nil => simp
    | cons x t ih => simp only [List.map_cons, List.sum_cons, ih, List.length_cons]; push_cast; ring
  have hn : (l.length : ℚ) ≠ 0 := by positivity
  unfold crossDev
  rw [e, e]
  field_simp
  ring

theorem sum_abs_mul (l : List (ℚ × ℚ)) (m n : ℚ) :
    (l.map (fun p => |(p.1 - m) * (p.2 - n)|)).sum ^ 2 ≤
      (l.map (fun p => (p.1 - m) * (p.1 - m))).sum * (l.map (fun p => (p.2 - n) * (p.2 - n))).sum := by
  have := list_cauchy_schwarz l (fun p : ℚ × ℚ => |p.1 - m|) (fun p => |p.2 - n|)
  simp only [abs_mul_abs_self, ← abs_mul] at this
  simpa [abs_mul] using this

/-! ### The error of the quotient -/

theorem corr_quotient (C C' cov den P D γ ε η lo hi : ℝ) (hD : 0 < D) (hC : |C| ≤ D) (hP : P ≤ (1 + ε) * D) (hC' : |C' - C| ≤ ε * D)
    (hcov : |cov - C'| ≤ γ * P) (hden1 : lo * D ≤ den) (hden2 : den ≤ (1 + ε) * hi * D) (hlo : 1 - η ≤ lo) (hhi : hi ≤ 1 + 4 / 3 * η)
    (hγ : γ ≤ 4 / 3 * η) (hγ0 : 0 ≤ γ) (hη0 : 0 ≤ η) (hη : η ≤ 1 / 1024) (hε0 : 0 ≤ ε) (hε : ε ≤ 1 / 1024) :
    |cov / den - C / D| ≤ 3 * η + 3 * ε := by
  have hdl : (1 - η) * D ≤ den := le_trans (mul_le_mul_of_nonneg_right hlo hD.le) hden1
  have hd0 : 0 < den := lt_of_lt_of_le (mul_pos (by linarith) hD) hdl
  have h1 : |cov - C| ≤ 4 / 3 * η * ((1 + ε) * D) + ε * D := by
    have t := abs_add_le (cov - C') (C' - C)
    rw [sub_add_sub_cancel] at t
    have a1 : γ * P ≤ γ * ((1 + ε) * D) := mul_le_mul_of_nonneg_left hP hγ0
    have a2 : γ * ((1 + ε) * D) ≤ 4 / 3 * η * ((1 + ε) * D) := mul_le_mul_of_nonneg_right hγ (mul_nonneg (by linarith) hD.le)
    linarith
  have h2 : |D - den| ≤ (4 / 3 * η + ε + 4 / 3 * η * ε) * D := by
    rw [abs_le]
    constructor
    · have : (1 + ε) * hi * D ≤ (1 + ε) * (1 + 4 / 3 * η) * D :=
        mul_le_mul_of_nonneg_right (mul_le_mul_of_nonneg_left hhi (by linarith)) hD.le
      linarith
    · have := mul_nonneg (mul_nonneg hη0 hε0) hD.le
      have := mul_nonneg hε0 hD.le
      have := mul_nonneg hη0 hD.le
      linarith
  have e : cov / den - C / D = ((cov - C) + C / D * (D - den)) / den := by
    field_simp
    ring
  have h3 : |C / D * (D - den)| ≤ |D - den| := by
    rw [abs_mul, abs_div, abs_of_pos hD]
    exact mul_le_of_le_one_left (abs_nonneg _) ((div_le_one hD).mpr hC)
  have h4 := abs_add_le (cov - C) (C / D * (D - den))
  rw [e, abs_div, abs_of_pos hd0, div_le_iff₀ hd0]
  have h5 : (3 * η + 3 * ε) * ((1 - η) * D) ≤ (3 * η + 3 * ε) * den := mul_le_mul_of_nonneg_left hdl (by linarith)
  have h6 : 0 ≤ (1 / 3 * η + ε - 3 * η * η - 17 / 3 * (η * ε)) * D := by
    apply mul_nonneg _ hD.le
    have q1 : η * η ≤ 1 / 1024 * η := mul_le_mul_of_nonneg_right hη hη0
    have q2 : η * ε ≤ 1 / 1024 * ε := mul_le_mul_of_nonneg_right hη hε0
    linarith
  linarith

theorem clamp_near (c r b : ℝ) (h : |c - r| ≤ b) (hr : |r| ≤ 1) : |(if c > 1 then 1 else if c < -1 then -1 else c) - r| ≤ b := by
  rw [abs_le] at *
  split_ifs <;> constructor <;> linarith

/-- The square of the rounded denominator. -/
theorem den64_sq (s : ℚ → ℚ) (hs : SqrtRounded s) {k : Nat} {X Y x y : ℚ} (hX : 0 ≤ X) (hY : 0 ≤ Y) (hx : Rounds k X x) (hy : Rounds k Y y) :
    0 ≤ f64 (s x * s y) ∧ X * Y * ((1 - 1 / 2 ^ 53) ^ (k + 3)) ^ 2 ≤ f64 (s x * s y) ^ 2 ∧ f64 (s x * s y) ^ 2 ≤ X * Y * ((1 + 1 / 2 ^ 53) ^ (k + 3)) ^ 2 := by
  have x0 := hx.nonneg hX
  have y0 := hy.nonneg hY
  have sx := hs.rounds x0
  have sy := hs.rounds y0
  have p0 : 0 ≤ s x * s y := mul_nonneg (hs x x0).1 (hs y y0).1
  have r1 := (hx.trans hX sx).mul hX hY (hy.trans hY sy)
  rw [show s x * s x * (s y * s y) = (s x * s y) ^ 2 by ring] at r1
  have r2 := rounds_sq (s x * s y)
  have r3 := r1.trans (mul_nonneg hX hY) r2
  rw [← sq] at r3
  refine ⟨f64_nonneg p0, ?_, ?_⟩
  · rw [← pow_mul]
    exact (r3.mono (mul_nonneg hX hY) (show k + 2 + (k + 2) + 2 ≤ (k + 3) * 2 by omega)).1
  · rw [← pow_mul]
    exact (r3.mono (mul_nonneg hX hY) (show k + 2 + (k + 2) + 2 ≤ (k + 3) * 2 by omega)).2

theorem corr_final (n : Nat) (hn : n ≤ 2 ^ 40) (Sx Sy a b ab C cov P den ε : ℚ) (r : ℝ) (hSx : 0 < Sx) (hSy : 0 < Sy) (a0 : 0 ≤ a) (ha : a ≤ ε * Sx)
    (b0 : 0 ≤ b) (hb : b ≤ ε * Sy) (hab : ab ^ 2 = a * b) (hε0 : 0 ≤ ε) (hε : ε ≤ 1 / 1024) (hC : C ^ 2 ≤ Sx * Sy)
    (hcov : |cov - (C + ab)| ≤ ((1 + 1 / 2 ^ 53) ^ (n + 3) - 1) * P) (hP0 : 0 ≤ P) (hP : P ^ 2 ≤ (Sx + a) * (Sy + b)) (d0 : 0 ≤ den)
    (d1 : (Sx + a) * (Sy + b) * ((1 - 1 / 2 ^ 53) ^ (n + 3 + 3)) ^ 2 ≤ den ^ 2) (d2 : den ^ 2 ≤ (Sx + a) * (Sy + b) * ((1 + 1 / 2 ^ 53) ^ (n + 3 + 3)) ^ 2)
    (hr : r * (Real.sqrt Sx * Real.sqrt Sy) = C) :
    |(((if f64 (cov / den) > 1 then 1 else if f64 (cov / den) < -1 then -1 else f64 (cov / den) : ℚ)) : ℝ) - r| ≤ (3 * n + 20) / 2 ^ 53 + 3 * ε := by
  have hSx' : (0 : ℝ) < Sx := by exact_mod_cast hSx
  have hSy' : (0 : ℝ) < Sy := by exact_mod_cast hSy
  obtain ⟨D, hDdef⟩ : ∃ D, D = Real.sqrt Sx * Real.sqrt Sy := ⟨_, rfl⟩
  have hD : 0 < D := by rw [hDdef]; exact mul_pos (Real.sqrt_pos.mpr hSx') (Real.sqrt_pos.mpr hSy')
  have hD2 : D ^ 2 = Sx * Sy := by rw [hDdef, mul_pow, Real.sq_sqrt hSx'.le, Real.sq_sqrt hSy'.le]
  rw [← hDdef] at hr
  have hq : (n : ℚ) ≤ 2 ^ 40 := by exact_mod_cast hn
  -- powers
  have u1 := factor_up (n + 6) 0 (by omega)
  have u2 := factor_up (n + 3) 0 (by omega)
  have u3 := factor_down (n + 6) 0
  have v1 : (1 : ℚ) ≤ (1 + 1 / 2 ^ 53) ^ (n + 3) := one_le_pow₀ (by norm_num)
  have v2 : (0 : ℚ) ≤ (1 + 1 / 2 ^ 53) ^ (n + 6) := pow_nonneg (by norm_num) _
  have v3 : (0 : ℚ) ≤ (1 - 1 / 2 ^ 53) ^ (n + 6) := lowPow_nonneg _
  rw [pow_zero, div_one, Nat.add_zero] at u1 u2 u3
  push_cast at u1 u2 u3
  rw [show n + 3 + 3 = n + 6 by ring] at d1 d2
  generalize (1 + 1 / 2 ^ 53 : ℚ) ^ (n + 6) = hi at *
  generalize (1 - 1 / 2 ^ 53 : ℚ) ^ (n + 6) = lo at *
  generalize (1 + 1 / 2 ^ 53 : ℚ) ^ (n + 3) = g at *
  obtain ⟨η, hη⟩ : ∃ η : ℚ, η = (n + 6) / 2 ^ 53 := ⟨_, rfl⟩
  have hη0 : 0 ≤ η := by rw [hη]; positivity
  have hη1 : η ≤ 1 / 1024 := by rw [hη]; linarith
  have w1 : hi ≤ 1 + 4 / 3 * η := by rw [hη]; linarith
  have w2 : g - 1 ≤ 4 / 3 * η := by rw [hη]; linarith
  have w3 : 1 - η ≤ lo := by rw [hη]; linarith
  -- products
  have hSS : 0 < Sx * Sy := mul_pos hSx hSy
  have m1 : (Sx + a) * (Sy + b) ≤ (1 + ε) ^ 2 * (Sx * Sy) := by
    have := mul_le_mul (show Sx + a ≤ (1 + ε) * Sx by linarith) (show Sy + b ≤ (1 + ε) * Sy by linarith) (by linarith) (by positivity)
    linarith
  have m2 : Sx * Sy ≤ (Sx + a) * (Sy + b) := mul_le_mul (by linarith) (by linarith) hSy.le (by linarith)
  have m3 : ab ^ 2 ≤ ε ^ 2 * (Sx * Sy) := by
    rw [hab]
    have := mul_le_mul ha hb b0 (by positivity)
    linarith
  have m4 : P ^ 2 ≤ (1 + ε) ^ 2 * (Sx * Sy) := hP.trans m1
  have m5 : lo ^ 2 * (Sx * Sy) ≤ den ^ 2 := le_trans (by rw [mul_comm]; exact mul_le_mul_of_nonneg_right m2 (sq_nonneg _)) d1
  have m6 : den ^ 2 ≤ ((1 + ε) * hi) ^ 2 * (Sx * Sy) := d2.trans (by
    have := mul_le_mul_of_nonneg_right m1 (sq_nonneg hi)
    rw [mul_pow]; linarith)
  have c1 : |(C : ℝ)| ≤ D := abs_le_of_sq_le_sq (by rw [hD2]; exact_mod_cast hC) hD.le
  have c2 : |((C + ab : ℚ) : ℝ) - C| ≤ ε * D := by
    push_cast
    rw [add_sub_cancel_left]
    refine abs_le_of_sq_le_sq ?_ (mul_nonneg (by exact_mod_cast hε0) hD.le)
    rw [mul_pow, hD2]; exact_mod_cast m3
  have e0 : (0 : ℝ) ≤ ε := by exact_mod_cast hε0
  have c3 : (P : ℝ) ≤ (1 + ε) * D := by
    refine le_of_abs_le (abs_le_of_sq_le_sq ?_ (mul_nonneg (by linarith) hD.le))
    rw [mul_pow, hD2]; exact_mod_cast m4
  have c4 : (lo : ℝ) * D ≤ den := by
    refine le_of_abs_le (abs_le_of_sq_le_sq ?_ (by exact_mod_cast d0))
    rw [mul_pow, hD2]; exact_mod_cast m5
  have c5 : (den : ℝ) ≤ (1 + ε) * hi * D := by
    refine le_of_abs_le (abs_le_of_sq_le_sq ?_ (mul_nonneg (mul_nonneg (by linarith) (by exact_mod_cast v2)) hD.le))
    rw [mul_pow, hD2]; exact_mod_cast m6
  have cast_le' : ∀ {x y : ℚ}, x ≤ y → (x : ℝ) ≤ ((y : ℚ) : ℝ) := fun h => Rat.cast_le.mpr h
  have x1 := cast_le' w1
  have x2 := cast_le' w2
  have x3 := cast_le' hη1
  have x4 := cast_le' hε
  push_cast at x1 x2 x3 x4
  have key := corr_quotient C ((C + ab : ℚ) : ℝ) cov den P D ((g - 1 : ℚ) : ℝ) ε η lo hi hD c1 c3 c2 (by exact_mod_cast hcov) c4 c5
    (by exact_mod_cast w3) x1 (by push_cast; exact x2) (by exact_mod_cast (by linarith : (0 : ℚ) ≤ g - 1)) (by exact_mod_cast hη0)
    x3 e0 x4
  have hrC : (C : ℝ) / D = r := by rw [← hr]; field_simp
  rw [hrC] at key
  have hr1 : |r| ≤ 1 := by rw [← hrC, abs_div, abs_of_pos hD, div_le_one hD]; exact c1
  have hf : |((f64 (cov / den) : ℚ) : ℝ) - ((cov / den : ℚ) : ℝ)| ≤ |((cov / den : ℚ) : ℝ)| / 2 ^ 53 := by exact_mod_cast f64_relErr (cov / den)
  have key2 : |((f64 (cov / den) : ℚ) : ℝ) - r| ≤ (3 * n + 20) / 2 ^ 53 + 3 * ε := by
    push_cast at hf
    have t1 := abs_add_le (((f64 (cov / den) : ℚ) : ℝ) - cov / den) ((cov : ℝ) / den - r)
    rw [sub_add_sub_cancel] at t1
    have t2 := abs_add_le ((cov : ℝ) / den - r) r
    rw [sub_add_cancel] at t2
    have e1 : (η : ℝ) = (n + 6) / 2 ^ 53 := by rw [hη]; push_cast; rfl
    have t3 : |(cov : ℝ) / den| / 2 ^ 53 ≤ 2 / 2 ^ 53 := div_le_div_of_nonneg_right (by linarith) (by norm_num)
    rw [e1] at key
    have : (3 * (n : ℝ) + 20) / 2 ^ 53 = 3 * ((n + 6) / 2 ^ 53) + 2 / 2 ^ 53 := by ring
    linarith
  have := clamp_near _ r _ key2 hr1
  generalize f64 (cov / den) = c at *
  have e : ((if c > 1 then 1 else if c < -1 then -1 else c : ℚ) : ℝ) = if (c : ℝ) > 1 then 1 else if (c : ℝ) < -1 then -1 else (c : ℝ) := by
    have i1 : (c : ℝ) > 1 ↔ c > 1 := by
      rw [gt_iff_lt, gt_iff_lt, ← Rat.cast_one, Rat.cast_lt]
    have i2 : (c : ℝ) < -1 ↔ c < -1 := by
      rw [show (-1 : ℝ) = ((-1 : ℚ) : ℝ) by norm_num, Rat.cast_lt]
    by_cases h1 : c > 1
    · rw [if_pos h1, if_pos (i1.mpr h1)]; norm_num
    · rw [if_neg h1, if_neg (fun h => h1 (i1.mp h))]
      by_cases h3 : c < -1
      · rw [if_pos h3, if_pos (i2.mpr h3)]; norm_num
      · rw [if_neg h3, if_neg (fun h => h3 (i2.mp h))]
  rw [e]
  exact this

theorem sum_cast {α : Type} (f : α → ℚ) (l : List α) : (((l.map f).sum : ℚ) : ℝ) = (l.map (fun a => (f a : ℝ))).sum := by
  induction l with
  | nil => simp
  | cons a l ih => simp [ih]

/-- The pairs as real numbers. -/
def realPairs (l : List (ℚ × ℚ)) : List (ℝ × ℝ) := l.map (fun p => ((p.1 : ℝ), (p.2 : ℝ)))

theorem crossDev_cast (f g : ℚ × ℚ → ℚ) (f' g' : ℝ × ℝ → ℝ) (hf : ∀ p : ℚ × ℚ, f' ((p.1 : ℝ), (p.2 : ℝ)) = f p)
    (hg : ∀ p : ℚ × ℚ, g' ((p.1 : ℝ), (p.2 : ℝ)) = g p) (l : List (ℚ × ℚ)) : crossDev f' g' (realPairs l) = ((crossDev f g l : ℚ) : ℝ) := by
  unfold crossDev realPairs
  rw [sum_cast]
  simp only [List.map_map, Function.comp_def, hf, hg, List.length_map]
  push_cast [sum_cast]
  rfl

theorem crossDev_nonneg (f : ℚ × ℚ → ℚ) (l : List (ℚ × ℚ)) : 0 ≤ crossDev f f l := sum_map_nonneg _ _ (fun _ _ => mul_self_nonneg _)

/-- **C136.** On well-conditioned data the correlation of `n` pairs computed in float64 is within `(3 n + 20) 2^-53 + 3 ε` of Pearson's correlation, where `ε` bounds
the squared error of the means relative to the mean squared deviations. -/
theorem C136_accuracy (s : ℚ → ℚ) (hs : SqrtRounded s) (l : List (ℚ × ℚ)) (h2 : 2 ≤ l.length) (hl : l.length ≤ 2 ^ 40) (Mx My ε : ℚ)
    (hx : ∀ p ∈ l, |p.1| ≤ Mx) (hy : ∀ p ∈ l, |p.2| ≤ My) (hε0 : 0 ≤ ε) (hε : ε ≤ 1 / 1024)
    (px : 0 < crossDev Prod.fst Prod.fst l) (py : 0 < crossDev Prod.snd Prod.snd l)
    (cx : (l.length : ℚ) * (((l.length : ℚ) + 2) * Mx / 2 ^ 53) ^ 2 ≤ ε * crossDev Prod.fst Prod.fst l)
    (cy : (l.length : ℚ) * (((l.length : ℚ) + 2) * My / 2 ^ 53) ^ 2 ≤ ε * crossDev Prod.snd Prod.snd l) :
    ∃ (c : ℚ) (r : ℝ), corrOf64 s l = some c ∧ corrOf Real.sqrt (realPairs l) = some r ∧ |(c : ℝ) - r| ≤ (3 * l.length + 20) / 2 ^ 53 + 3 * ε := by
  have hl0 : 0 < l.length := by omega
  have hn0 : (0 : ℚ) < l.length := by exact_mod_cast hl0
  have hq : (l.length : ℚ) ≤ 2 ^ 40 := by exact_mod_cast hl
  -- the means
  have mean : ∀ (f : ℚ × ℚ → ℚ) (M : ℚ), (∀ p ∈ l, |f p| ≤ M) →
      ((l.map f).sum / l.length - listMean64 (l.map f)) ^ 2 ≤ (((l.length : ℚ) + 2) * M / 2 ^ 53) ^ 2 := by
    intro f M hf
    have hM0 : 0 ≤ M := (abs_nonneg _).trans (hf _ (List.getElem_mem hl0))
    have := (moments64_near (l.map f) M hM0 (by simpa using hl0) (by simpa using hl) (by
      intro x hx; rw [List.mem_map] at hx; obtain ⟨p, hp, rfl⟩ := hx; exact hf p hp)).2.1
    rw [List.length_map] at this
    unfold listMean64
    rw [List.length_map]
    rw [abs_sub_comm] at this
    exact sq_le_sq' (by linarith [(abs_le.mp this).1]) (abs_le.mp this).2
  have mx := mean Prod.fst Mx hx
  have my := mean Prod.snd My hy
  unfold corrOf64
  rw [if_neg (by omega)]
  simp only
  have ex : l.map (fun p => p.1) = l.map Prod.fst := rfl
  have ey : l.map (fun p => p.2) = l.map Prod.snd := rfl
  rw [ex, ey]
  generalize hmr : listMean64 (l.map Prod.fst) = mr at *
  generalize hmv : listMean64 (l.map Prod.snd) = mv at *
  have rx := (devSum64_sq l Prod.fst mr).1
  have ry := (devSum64_sq l Prod.snd mv).1
  have hcov := devSum64_error l mr mv
  have hP2 := sum_abs_mul l mr mv
  have hP0 : 0 ≤ (l.map (fun p => |(p.1 - mr) * (p.2 - mv)|)).sum := sum_map_nonneg _ _ (fun _ _ => abs_nonneg _)
  have sxy := crossDev_shift Prod.fst Prod.snd l hl0 mr mv
  have sxx := crossDev_shift Prod.fst Prod.fst l hl0 mr mr
  have syy := crossDev_shift Prod.snd Prod.snd l hl0 mv mv
  rw [sxx] at rx
  rw [syy] at ry
  rw [sxy] at hcov
  rw [sxx, syy] at hP2
  have hsr : devSum64 (l.map (fun p => (Prod.fst p, Prod.fst p))) mr mr = devSum64 (l.map (fun p => (p.1, p.1))) mr mr := rfl
  generalize devSum64 (l.map (fun p => (p.1, p.1))) mr mr = sr at *
  generalize devSum64 (l.map (fun p => (p.2, p.2))) mv mv = sv at *
  generalize devSum64 l mr mv = cov at *
  generalize (l.map (fun p => |(p.1 - mr) * (p.2 - mv)|)).sum = P at *
  generalize hA : (l.map Prod.fst).sum / (l.length : ℚ) - mr = A at *
  generalize hB : (l.map Prod.snd).sum / (l.length : ℚ) - mv = B at *
  -- the exact correlation
  have cxx := crossDev_cast Prod.fst Prod.fst Prod.fst Prod.fst (fun _ => rfl) (fun _ => rfl) l
  have cyy := crossDev_cast Prod.snd Prod.snd Prod.snd Prod.snd (fun _ => rfl) (fun _ => rfl) l
  have cxy := crossDev_cast Prod.fst Prod.snd Prod.fst Prod.snd (fun _ => rfl) (fun _ => rfl) l
  have hex := corrOf_pearson Real.sqrt (fun x hx => ⟨Real.sqrt_nonneg x, Real.mul_self_sqrt hx⟩) (realPairs l)
  rw [cxx, cyy, cxy] at hex
  have hlen : (realPairs l).length = l.length := by simp [realPairs]
  rcases hex with ⟨r, hr, -, hrD⟩ | ⟨-, h⟩
  swap
  · rcases h with h | h | h
    · omega
    · exact absurd h (by exact_mod_cast px.ne')
    · exact absurd h (by exact_mod_cast py.ne')
  have hcs : crossDev Prod.fst Prod.snd l ^ 2 ≤ crossDev Prod.fst Prod.fst l * crossDev Prod.snd Prod.snd l :=
    list_cauchy_schwarz l (fun p : ℚ × ℚ => p.1 - (l.map Prod.fst).sum / (l.length : ℚ)) (fun p => p.2 - (l.map Prod.snd).sum / (l.length : ℚ))
  generalize crossDev Prod.fst Prod.fst l = Sx at *
  generalize crossDev Prod.snd Prod.snd l = Sy at *
  generalize crossDev Prod.fst Prod.snd l = C at *
  clear cxx cyy cxy mean ex ey hsr sxy sxx syy hmr hmv hA hB
  -- shifted sums
  have nA : (l.length : ℚ) * (A * A) ≤ ε * Sx := le_trans (by rw [← sq]; exact mul_le_mul_of_nonneg_left mx hn0.le) cx
  have nB : (l.length : ℚ) * (B * B) ≤ ε * Sy := le_trans (by rw [← sq]; exact mul_le_mul_of_nonneg_left my hn0.le) cy
  have nA0 : 0 ≤ (l.length : ℚ) * (A * A) := mul_nonneg hn0.le (mul_self_nonneg A)
  have nB0 : 0 ≤ (l.length : ℚ) * (B * B) := mul_nonneg hn0.le (mul_self_nonneg B)
  have hsr : sr > 0 := (rx.pos_iff (by linarith)).mpr (by linarith)
  have hsv : sv > 0 := (ry.pos_iff (by linarith)).mpr (by linarith)
  rw [if_pos ⟨hsr, hsv⟩]
  obtain ⟨d0, d1, d2⟩ := den64_sq s hs (show 0 ≤ Sx + l.length * (A * A) by linarith) (show 0 ≤ Sy + l.length * (B * B) by linarith) rx ry
  generalize f64 (s sr * s sv) = den at *
  refine ⟨_, r, rfl, hr, ?_⟩
  exact corr_final l.length hl Sx Sy _ _ _ C cov P den ε r px py nA0 nA nB0 nB (by ring) hε0 hε hcs hcov hP0 hP2 d0 d1 d2 hrD

example : let l := [((1 : ℚ), (1 : ℚ)), (2, 3), (3, 2)]
    2 ≤ l.length ∧ (∀ p ∈ l, |p.1| ≤ 3) ∧ (∀ p ∈ l, |p.2| ≤ 3) ∧ 0 < crossDev Prod.fst Prod.fst l ∧ 0 < crossDev Prod.snd Prod.snd l ∧
    (l.length : ℚ) * (((l.length : ℚ) + 2) * 3 / 2 ^ 53) ^ 2 ≤ 1 / 2 ^ 90 * crossDev Prod.fst Prod.fst l ∧
    (l.length : ℚ) * (((l.length : ℚ) + 2) * 3 / 2 ^ 53) ^ 2 ≤ 1 / 2 ^ 90 * crossDev Prod.snd Prod.snd l := by
  intro l
  exact ⟨by decide, by decide +kernel, by decide +kernel, by decide +kernel, by decide +kernel, by decide +kernel, by decide +kernel⟩

/-! ### When there is a value -/

/-- **C136.** Whatever the data and the square root, a value lies in `[-1, 1]`. -/
theorem C136_range (s : ℚ → ℚ) (price volume : List (Option ℚ)) (w i : Nat) (c : ℚ) (h : corrAt64 s price volume w i = some c) : |c| ≤ 1 := by
  unfold corrAt64 at h
  split_ifs at h
  · rw [Option.some.injEq] at h; subst h; norm_num
  · rw [Option.some.injEq] at h; subst h; norm_num
  · unfold corrOf64 at h
    by_cases hl : (validPairs64 price volume w i).length < 2
    · rw [if_pos hl] at h; cases h
    · rw [if_neg hl] at h
      simp only at h
      split at h
      · rw [Option.some.injEq] at h
        rw [← h, abs_le]
        split_ifs <;> constructor <;> linarith
      · cases h

example : corrAt64 (fun x => x) [some 1, some 2, some 4, some 5, some 7] [some 1, some 2, some 4, some 5, some 7] 3 4 = some 1 := by decide +kernel

/-- A sum of squares of rounded deviations is positive unless every deviation is 0. -/
theorem devSum64_pos_iff (l : List (ℚ × ℚ)) (f : ℚ × ℚ → ℚ) (m : ℚ) :
    devSum64 (l.map (fun p => (f p, f p))) m m > 0 ↔ ∃ p ∈ l, f p ≠ m := by
  obtain ⟨r, h0⟩ := devSum64_sq l f m
  rw [gt_iff_lt, r.pos_iff h0]
  clear r h0
  induction l with
  | nil => simp
  | cons p l ih =>
    have hn : 0 ≤ (l.map (fun p => (f p - m) * (f p - m))).sum := sum_map_nonneg _ _ (fun _ _ => mul_self_nonneg _)
    rw [List.map_cons, List.sum_cons]
    by_cases hp : f p = m
    · rw [hp, sub_self, zero_mul, zero_add, ih]
      simp [hp]
    · have : 0 < (f p - m) * (f p - m) := mul_self_pos.mpr (sub_ne_zero.mpr hp)
      exact ⟨fun _ => ⟨p, by simp, hp⟩, fun _ => by linarith⟩

/-- **C136.** There is no value exactly when there are fewer than two pairs or one coordinate is everywhere equal to its rounded mean. -/
theorem C136_missing (s : ℚ → ℚ) (l : List (ℚ × ℚ)) :
    corrOf64 s l = none ↔ l.length < 2 ∨ (∀ p ∈ l, p.1 = listMean64 (l.map Prod.fst)) ∨ ∀ p ∈ l, p.2 = listMean64 (l.map Prod.snd) := by
  unfold corrOf64
  by_cases hl : l.length < 2
  · rw [if_pos hl]; simp [hl]
  rw [if_neg hl]
  simp only
  have a := devSum64_pos_iff l Prod.fst (listMean64 (l.map Prod.fst))
  have b := devSum64_pos_iff l Prod.snd (listMean64 (l.map Prod.snd))
  split
  · rename_i h
    obtain ⟨p, hp, h1⟩ := a.mp h.1
    obtain ⟨q, hq, h2⟩ := b.mp h.2
    simp only [reduceCtorEq, hl, false_or, false_iff, not_or, not_forall]
    exact ⟨⟨p, hp, h1⟩, q, hq, h2⟩
  · rename_i h
    simp only [hl, false_or, true_iff]
    by_contra hc
    push Not at hc
    exact h ⟨a.mpr hc.1, b.mpr hc.2⟩

example : corrOf64 (fun x => x) [(1, 1), (1, 2)] = none ∧ (corrOf64 (fun x => x) [(1, 1), (2, 2)]).isSome = true := by decide +kernel

/-- **C136.** So the float64 correlation of given pairs is missing only if the exact one is. -/
theorem C136_missing_exact (s : ℚ → ℚ) (sqrt : ℚ → ℚ) (l : List (ℚ × ℚ)) (h : corrOf64 s l = none) : corrOf sqrt l = none := by
  have key : ∀ (f : ℚ × ℚ → ℚ) (m : ℚ), 0 < l.length → (∀ p ∈ l, f p = m) →
      (l.map (fun p => (f p - (l.map f).sum / (l.length : ℚ)) * (f p - (l.map f).sum / (l.length : ℚ)))).sum = 0 := by
    intro f m hl hm
    have e : (l.map f).sum = l.length * m := by
      rw [List.map_congr_left (g := fun _ => m) hm, List.map_const', List.sum_replicate, nsmul_eq_mul]
    have hn : (l.length : ℚ) ≠ 0 := by positivity
    rw [e, mul_div_cancel_left₀ _ hn]
    rw [List.map_congr_left (g := fun _ => (0 : ℚ)) (fun p hp => by rw [hm p hp]; ring)]
    simp
  rw [C136_missing] at h
  unfold corrOf
  by_cases hl : l.length < 2
  · rw [if_pos hl]
  rw [if_neg hl]
  simp only
  rw [if_neg]
  rintro ⟨g1, g2⟩
  rcases h with h | h | h
  · exact hl h
  · have := key Prod.fst _ (by omega) h
    exact absurd this (ne_of_gt g1)
  · have := key Prod.snd _ (by omega) h
    exact absurd this (ne_of_gt g2)

example : corrOf64 (fun x => x) [(3, 1), (3, 2), (3, 5)] = none ∧ corrOf (fun x => x) [((3 : ℚ), 1), (3, 2), (3, 5)] = none := by decide +kernel

/-- **C136.** A bar falls under the same rule in both arithmetics: no value and the built-in values 1 and -1 are decided alike, and otherwise the float64 value
is the one of the same pairs with every return within three units of `2^-53`. -/
theorem C136_same_rule (s sqrt : ℚ → ℚ) (price volume : List (Option ℚ)) (w i : Nat) :
    (corrAt64 s price volume w i = corrAt sqrt price volume w i) ∨
    (corrAt64 s price volume w i = corrOf64 s (validPairs64 price volume w i) ∧ corrAt sqrt price volume w i = corrOf sqrt (validPairs price volume w i) ∧
      List.Forall₂ (fun p q => q.2 = p.2 ∧ |q.1 - p.1| ≤ 3 / 2 ^ 53 * |p.1|) (validPairs price volume w i) (validPairs64 price volume w i)) := by
  have hr : ∀ j, (relReturn64 price j = none ∧ simpleReturn price j = none) ∨
      ∃ x y, relReturn64 price j = some y ∧ simpleReturn price j = some x ∧ |y - x| ≤ 3 / 2 ^ 53 * |x| := by
    intro j
    unfold relReturn64 simpleReturn
    by_cases hj : j = 0
    · rw [if_pos hj, if_pos hj]; exact Or.inl ⟨rfl, rfl⟩
    rw [if_neg hj, if_neg hj]
    cases price.getD j none with
    | none => exact Or.inl ⟨rfl, rfl⟩
    | some a =>
      cases price.getD (j - 1) none with
      | none => exact Or.inl ⟨rfl, rfl⟩
      | some b =>
        simp only
        by_cases hb : b ≠ 0
        · rw [if_pos hb, if_pos hb]
          exact Or.inr ⟨_, _, rfl, rfl, (C133_diff_error a b).1⟩
        · rw [if_neg hb, if_neg hb]; exact Or.inl ⟨rfl, rfl⟩
  have hn : (relReturn64 price i).isNone = (simpleReturn price i).isNone := by
    rcases hr i with ⟨h1, h2⟩ | ⟨x, y, h1, h2, -⟩ <;> rw [h1, h2]
    rfl
  unfold corrAt64 corrAt
  rw [hn]
  split_ifs
  · left; rfl
  · left; rfl
  · left; rfl
  · left; rfl
  · right
    refine ⟨rfl, rfl, ?_⟩
    unfold validPairs validPairs64
    generalize List.range' (i + 1 - w) w = l
    induction l with
    | nil => exact .nil
    | cons j l ih =>
      rw [List.filterMap_cons, List.filterMap_cons]
      rcases hr j with ⟨h1, h2⟩ | ⟨x, y, h1, h2, h3⟩
      · rw [h1, h2]
        exact ih
      · rw [h1, h2]
        cases volume.getD j none with
        | none => exact ih
        | some v => exact .cons ⟨rfl, h3⟩ ih

example : validPairs64 [some 10, some 11, none, some 3, some 4] [some 1, some 2, some 3, none, some 5] 4 4 = [(f64 (1 / 10), 2), (f64 (1 / 3), 5)] := by
  decide +kernel

/-- A clearly negative correlation stays so under any rounded square root. -/
theorem corrOf64_below (s : ℚ → ℚ) (hs : SqrtRounded s) (l : List (ℚ × ℚ)) (cov sr sv : ℚ) (h2 : 2 ≤ l.length)
    (hcov : devSum64 l (listMean64 (l.map (·.1))) (listMean64 (l.map (·.2))) = cov)
    (hsr : devSum64 (l.map (fun p => (p.1, p.1))) (listMean64 (l.map (·.1))) (listMean64 (l.map (·.1))) = sr)
    (hsv : devSum64 (l.map (fun p => (p.2, p.2))) (listMean64 (l.map (·.2))) (listMean64 (l.map (·.2))) = sv)
    (p1 : 0 < sr) (p2 : 0 < sv) (hneg : cov < 0) (hb : (995 / 1000) ^ 2 * (sr * sv * ((1 + 1 / 2 ^ 53) ^ 3) ^ 2) ≤ cov ^ 2) :
    ∃ c, corrOf64 s l = some c ∧ c < -99 / 100 := by
  unfold corrOf64
  rw [if_neg (by omega)]
  simp only
  rw [hcov, hsr, hsv, if_pos ⟨p1, p2⟩]
  refine ⟨_, rfl, ?_⟩
  obtain ⟨d0, d1, d2⟩ := den64_sq s hs p1.le p2.le (Rounds.refl sr) (Rounds.refl sv)
  rw [Nat.zero_add] at d1 d2
  generalize f64 (s sr * s sv) = den at *
  have hd : 0 < den := lt_of_le_of_ne d0 (fun h => by
    rw [← h] at d1
    have : 0 < sr * sv * ((1 - 1 / 2 ^ 53) ^ 3) ^ 2 := by have := lowPow_pos 3; positivity
    norm_num at d1
    linarith)
  have hq : cov / den ≤ -(995 / 1000) := by
    rw [div_le_iff₀ hd]
    have : 995 / 1000 * den ≤ -cov := by
      refine le_of_abs_le (abs_le_of_sq_le_sq ?_ (by linarith))
      rw [mul_pow, neg_sq]
      exact le_trans (mul_le_mul_of_nonneg_left d2 (by norm_num)) hb
    linarith
  have hf : f64 (cov / den) < -99 / 100 := lt_of_le_of_lt (f64_mono hq) (by decide +kernel)
  split_ifs <;> linarith

/-- **C136, violation.** Prices growing by 10 % per bar have constant returns and no correlation with anything. With float64 prices the correlation of their rounding
errors with a rising volume is below -0.99 at bar 13. -/
theorem C136_noise (s : ℚ → ℚ) (hs : SqrtRounded s) :
    let exact := (List.range 14).map (fun k => some (100 * (11 / 10 : ℚ) ^ k))
    let price := (List.range 14).map (fun k => some (f64 (100 * (11 / 10) ^ k)))
    let volume := (List.range 14).map (fun k : Nat => some (k : ℚ))
    (∀ sqrt, corrAt sqrt exact volume 3 13 = none) ∧ ∃ c, corrAt64 s price volume 3 13 = some c ∧ c < -99 / 100 := by
  intro exact price volume
  constructor
  · intro sqrt
    have e : validPairs exact volume 3 13 = [(1 / 10, 11), (1 / 10, 12), (1 / 10, 13)] := by decide +kernel
    unfold corrAt
    rw [if_neg (by decide), if_neg (by decide +kernel), if_neg (by omega), if_neg (by omega), e]
    unfold corrOf
    rw [if_neg (by decide)]
    simp only
    rw [if_neg (by decide +kernel)]
  · have e : corrAt64 s price volume 3 13 = corrOf64 s (validPairs64 price volume 3 13) := by
      unfold corrAt64
      rw [if_neg (by decide), if_neg (by decide +kernel), if_neg (by omega), if_neg (by omega)]
    rw [e]
    exact corrOf64_below s hs _ _ _ _ (by decide +kernel) rfl rfl rfl (by decide +kernel) (by decide +kernel) (by decide +kernel) (by decide +kernel)

/-- **C136.** The correlation column: entry `i` lies in `[-1, 1]`, and follows the same rule as the exact column: both give the same value without computing a
correlation, or both compute it, from the same volumes and from returns within `3 · 2^-53` of each other. -/
theorem C136_column (s sqrt : ℚ → ℚ) (price volume : List (Option ℚ)) (w i : Nat) (hi : i < price.length) :
    (∀ c, (priceVolumeCorrelation64 s price volume w)[i]? = some (some c) → |c| ≤ 1) ∧
    ((priceVolumeCorrelation64 s price volume w)[i]? = (priceVolumeCorrelation sqrt price volume w)[i]? ∨
     ((priceVolumeCorrelation64 s price volume w)[i]? = some (corrOf64 s (validPairs64 price volume w i)) ∧
      (priceVolumeCorrelation sqrt price volume w)[i]? = some (corrOf sqrt (validPairs price volume w i)) ∧
      List.Forall₂ (fun p q => q.2 = p.2 ∧ |q.1 - p.1| ≤ 3 / 2 ^ 53 * |p.1|) (validPairs price volume w i) (validPairs64 price volume w i))) := by
  have e : (priceVolumeCorrelation64 s price volume w)[i]? = some (corrAt64 s price volume w i) := by
    unfold priceVolumeCorrelation64; rw [tabulate_get?, if_pos hi]
  have e' : (priceVolumeCorrelation sqrt price volume w)[i]? = some (corrAt sqrt price volume w i) := by
    unfold priceVolumeCorrelation; rw [tabulate_get?, if_pos hi]
  rw [e, e']
  refine ⟨fun c hc => C136_range s price volume w i c (Option.some.inj hc), ?_⟩
  rcases C136_same_rule s sqrt price volume w i with h | ⟨h1, h2, h3⟩
  · exact Or.inl (by rw [h])
  · exact Or.inr ⟨by rw [h1], by rw [h2], h3⟩

example : (priceVolumeCorrelation64 id [some 1, some 2, some 3, some 4, some 5] [some 1, some 2, some 3, some 4, some 5] 2)[4]? = some (some 1) := by decide +kernel

end FinML
