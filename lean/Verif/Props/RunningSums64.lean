/-
C90 continued: what the running and cumulative sums do to VWAP distance and VPIN in float64.
-/
import Verif.Props.Oscillators64

set_option linter.unusedSectionVars false

namespace FinML

/-- **C90.** The VWAP distance `close / (wsum / vsum) - 1`, given the running sums, has an error of at most `6 (q + 1) 2^-53` where
`q = close / (wsum / vsum)`. -/
theorem C90_vwap_distance_error (c : ℚ) (s : ℚ × ℚ) (hc : 0 ≤ c) (h1 : 0 < s.1) (h2 : 0 < s.2) :
    |vwapDistVal64 c s - (c / (s.1 / s.2) - 1)| ≤ 6 / 2 ^ 53 * (c / (s.1 / s.2) + 1) := by
  have hv : 0 < s.1 / s.2 := div_pos h1 h2
  have hq : 0 ≤ c / (s.1 / s.2) := div_nonneg hc hv.le
  have r := ((Rounds.refl c).quot hc hv (rounds_f64 hv.le)).f64 hq
  have a := r.absErr hq (by norm_num)
  have b := r.nonneg hq
  unfold vwapDistVal64
  generalize c / (s.1 / s.2) = q at *
  generalize f64 (c / f64 (s.1 / s.2)) = y at *
  have e := f64_relErr (y - 1)
  have a2 : |y - q| ≤ q * (4 / 2 ^ 53) := by
    refine a.trans (le_of_eq ?_)
    norm_num
  have y1 : |y - 1| ≤ 2 * (q + 1) := by
    have := abs_le.mp a2
    have : q * (4 / 2 ^ 53) ≤ q * 1 := mul_le_mul_of_nonneg_left (by norm_num) hq
    rw [abs_le]; constructor <;> linarith
  have y2 : |y - 1| / 2 ^ 53 ≤ 2 * (q + 1) / 2 ^ 53 := div_le_div_of_nonneg_right y1 (by norm_num)
  have t := abs_add_le (f64 (y - 1) - (y - 1)) (y - q)
  rw [show f64 (y - 1) - (y - 1) + (y - q) = f64 (y - 1) - (q - 1) by ring] at t
  have f : q * (4 / 2 ^ 53) + 2 * (q + 1) / 2 ^ 53 ≤ 6 / 2 ^ 53 * (q + 1) := by
    have : 6 / 2 ^ 53 * (q + 1) - (q * (4 / 2 ^ 53) + 2 * (q + 1) / 2 ^ 53) = 4 / 2 ^ 53 := by ring
    have : (0 : ℚ) ≤ 4 / 2 ^ 53 := by norm_num
    linarith
  linarith

example : |vwapDistVal64 3 (10, 4) - (3 / (10 / 4) - 1)| ≠ 0 ∧ vwapDistVal64 3 (8, 4) = 1 / 2 := by decide +kernel

/-- **C90.** The cumulative sums of VPIN are the rounded sums of the prefixes. -/
theorem C90_cumulative (xs : List ℚ) (i : Nat) (h : i ≤ xs.length) : (cumSums64 xs)[i]? = some (sum64 (xs.take i)) :=
  scanl_getElem? _ _ _ _ h

example : cumSums64 [1, 2, 1 / 4] = [0, 1, 3, 13 / 4] := by decide +kernel

theorem window_sum_sub (l : List ℚ) (w i : Nat) (h : w ≤ i + 1) : (l.take (i + 1)).sum - (l.take (i + 1 - w)).sum = (window l w i).sum := by
  have e : l.take (i + 1) = l.take (i + 1 - w) ++ window l w i := by
    unfold window
    rw [← List.take_add, show i + 1 - w + w = i + 1 by omega]
  rw [e, List.sum_append]
  ring

/-- A rounded difference of two prefix sums. -/
theorem prefix_diff_error (k : Nat) (hk : k ≤ 2 ^ 45) (X Y x y : ℚ) (hY : 0 ≤ Y) (hXY : Y ≤ X) (hx : Rounds k X x) (hy : Rounds k Y y) :
    |f64 (x - y) - (X - Y)| ≤ (8 / 3 * k + 2) / 2 ^ 53 * X := by
  have hX : 0 ≤ X := hY.trans hXY
  have a := hx.absErr hX (by omega)
  have b := hy.absErr hY (by omega)
  have hkq : (0 : ℚ) ≤ k := Nat.cast_nonneg k
  have hkq2 : (k : ℚ) ≤ 2 ^ 45 := by exact_mod_cast hk
  have b2 : Y * (4 / 3 * k / 2 ^ 53) ≤ X * (4 / 3 * k / 2 ^ 53) := mul_le_mul_of_nonneg_right hXY (by positivity)
  have d : |(x - y) - (X - Y)| ≤ 2 * (X * (4 / 3 * k / 2 ^ 53)) := by
    have := abs_add_le (x - X) (Y - y)
    rw [abs_sub_comm Y y, show x - X + (Y - y) = (x - y) - (X - Y) by ring] at this
    linarith
  have d2 : 2 * (X * (4 / 3 * k / 2 ^ 53)) ≤ X := by
    have : X * (2 * (4 / 3 * k / 2 ^ 53)) ≤ X * 1 := by
      refine mul_le_mul_of_nonneg_left ?_ hX
      rw [mul_div_assoc', div_le_one (by norm_num)]
      linarith
    linarith
  have e := f64_relErr (x - y)
  have g : |x - y| ≤ 2 * X := by
    have := abs_le.mp d
    rw [abs_le]; constructor <;> linarith
  have g2 : |x - y| / 2 ^ 53 ≤ 2 * X / 2 ^ 53 := div_le_div_of_nonneg_right g (by norm_num)
  have t := abs_add_le (f64 (x - y) - (x - y)) ((x - y) - (X - Y))
  rw [sub_add_sub_cancel] at t
  have f : (8 / 3 * k + 2) / 2 ^ 53 * X = 2 * (X * (4 / 3 * k / 2 ^ 53)) + 2 * X / 2 ^ 53 := by ring
  linarith

theorem take_sum_nonneg (l : List ℚ) (h : ∀ x ∈ l, 0 ≤ x) (i : Nat) : 0 ≤ (l.take i).sum :=
  List.sum_nonneg (fun x hx => h x (List.mem_of_mem_take hx))

theorem take_sum_mono (l : List ℚ) (h : ∀ x ∈ l, 0 ≤ x) (w i : Nat) (hw : w ≤ i + 1) : (l.take (i + 1 - w)).sum ≤ (l.take (i + 1)).sum := by
  have e := window_sum_sub l w i hw
  have : 0 ≤ (window l w i).sum := List.sum_nonneg (fun x hx => h x (List.mem_of_mem_drop (List.mem_of_mem_take hx)))
  linarith

theorem zipWith_abs_sum (b s : List ℚ) (hb : ∀ x ∈ b, 0 ≤ x) (hs : ∀ x ∈ s, 0 ≤ x) (hl : b.length = s.length) :
    (List.zipWith (fun x y => |x - y|) b s).sum ≤ b.sum + s.sum := by
  induction b generalizing s with
  | nil =>
    have : 0 ≤ s.sum := List.sum_nonneg hs
    simpa using this
  | cons x b ih =>
    cases s with
    | nil => simp at hl
    | cons y s =>
      have := ih s (fun z hz => hb z (by simp [hz])) (fun z hz => hs z (by simp [hz])) (by simpa using hl)
      have hx := hb x (by simp)
      have hy := hs y (by simp)
      have : |x - y| ≤ x + y := by rw [abs_le]; constructor <;> linarith
      simp only [List.zipWith_cons_cons, List.sum_cons]
      linarith

theorem zipWith_abs_rounds (b s : List ℚ) : Rounds 1 (List.zipWith (fun x y => |x - y|) b s).sum (List.zipWith (fun x y => |f64 (x - y)|) b s).sum := by
  induction b generalizing s with
  | nil => simp [Rounds]
  | cons x b ih =>
    cases s with
    | nil => simp [Rounds]
    | cons y s =>
      simp only [List.zipWith_cons_cons, List.sum_cons]
      refine Rounds.add ?_ (ih s)
      rw [← f64_abs]
      exact rounds_f64 (abs_nonneg _)

theorem window_zipWith {α β γ : Type} (f : α → β → γ) (b : List α) (s : List β) (w i : Nat) :
    window (List.zipWith f b s) w i = List.zipWith f (window b w i) (window s w i) := by
  unfold window
  rw [List.drop_zipWith, List.take_zipWith]

/-- **C90.** VPIN in float64: with `C` the whole volume up to the bar, `T` the volume in the window and `A` the sum of the absolute imbalances
in the window, the value is within `8 (i + 3) (C / T) 2^-53 + 2^-22` of `A / T`, as long as the window holds a share of the whole volume above the
rounding of the cumulative sums.  The error grows with the number of bars and the volume traded before the window. -/
theorem C90_vpin_error (buy sell : List ℚ) (w i : Nat) (hb : ∀ x ∈ buy, 0 ≤ x) (hs : ∀ x ∈ sell, 0 ≤ x) (hl : buy.length = sell.length)
    (hi : i < buy.length) (hw : w ≤ i + 1) (hi2 : i ≤ 2 ^ 40) :
    let C := (buy.take (i + 1)).sum + (sell.take (i + 1)).sum
    let T := (window buy w i).sum + (window sell w i).sum
    let A := (List.zipWith (fun x y => |x - y|) (window buy w i) (window sell w i)).sum
    2 / 1000000000 < T → 16 * ((i : ℚ) + 3) * C ≤ 2 ^ 53 * T →
    ∃ r, vpinAt64 buy sell w i = some r ∧ |r - A / T| ≤ 8 * ((i : ℚ) + 3) * (C / T) / 2 ^ 53 + 1 / 2 ^ 22 := by
  intro C T A hT hC
  have hT0 : 0 < T := by linarith [show (0 : ℚ) < 2 / 1000000000 by norm_num]
  have iq : (0 : ℚ) ≤ i := Nat.cast_nonneg i
  have iq2 : (i : ℚ) ≤ 2 ^ 40 := by exact_mod_cast hi2
  -- the prefix sums
  have get : ∀ (l : List ℚ) (j : Nat), j ≤ l.length → (cumSums64 l).getD j 0 = sum64 (l.take j) := by
    intro l j hj
    rw [List.getD_eq_getElem?_getD, C90_cumulative l j hj]; rfl
  have rds : ∀ (l : List ℚ), (∀ x ∈ l, 0 ≤ x) → ∀ j, j ≤ i + 1 → Rounds (i + 1) (l.take j).sum (sum64 (l.take j)) := by
    intro l h j hj
    refine (sum64_rounds (l.take j) (fun x hx => h x (List.mem_of_mem_take hx))).mono (take_sum_nonneg l h j) ?_
    rw [List.length_take]; omega
  have hz : ∀ (f : ℚ → ℚ → ℚ), (List.zipWith f buy sell).length = buy.length := by intro f; simp [hl]
  have za : ∀ x ∈ List.zipWith (fun b s => |f64 (b - s)|) buy sell, 0 ≤ x := by
    intro x hx
    obtain ⟨a, _, b, _, rfl⟩ := mem_zipWith_exists _ _ _ _ hx
    exact abs_nonneg _
  have ze : ∀ x ∈ List.zipWith (fun b s => |b - s|) buy sell, 0 ≤ x := by
    intro x hx
    obtain ⟨a, _, b, _, rfl⟩ := mem_zipWith_exists _ _ _ _ hx
    exact abs_nonneg _
  have ra : ∀ j, j ≤ i + 1 → Rounds (i + 2) ((List.zipWith (fun b s => |b - s|) buy sell).take j).sum
      (sum64 ((List.zipWith (fun b s => |f64 (b - s)|) buy sell).take j)) := by
    intro j hj
    have r1 := zipWith_abs_rounds (buy.take j) (sell.take j)
    rw [← List.take_zipWith, ← List.take_zipWith] at r1
    have := r1.trans (take_sum_nonneg _ ze j) (rds _ za j hj)
    rwa [show 1 + (i + 1) = i + 2 by ring] at this
  have eb := prefix_diff_error (i + 2) (by omega) _ _ _ _ (take_sum_nonneg buy hb _) (take_sum_mono buy hb w i hw)
    ((rds buy hb (i + 1) le_rfl).mono (take_sum_nonneg buy hb _) (by omega)) ((rds buy hb (i + 1 - w) (by omega)).mono (take_sum_nonneg buy hb _) (by omega))
  have es := prefix_diff_error (i + 2) (by omega) _ _ _ _ (take_sum_nonneg sell hs _) (take_sum_mono sell hs w i hw)
    ((rds sell hs (i + 1) le_rfl).mono (take_sum_nonneg sell hs _) (by omega)) ((rds sell hs (i + 1 - w) (by omega)).mono (take_sum_nonneg sell hs _) (by omega))
  have ea := prefix_diff_error (i + 2) (by omega) _ _ _ _ (take_sum_nonneg _ ze _) (take_sum_mono _ ze w i hw)
    (ra (i + 1) le_rfl) (ra (i + 1 - w) (by omega))
  rw [window_sum_sub _ w i hw] at eb es ea
  rw [window_zipWith] at ea
  have hAC : ((List.zipWith (fun b s => |b - s|) buy sell).take (i + 1)).sum ≤ C := by
    rw [List.take_zipWith]
    exact zipWith_abs_sum _ _ (fun x hx => hb x (List.mem_of_mem_take hx)) (fun x hx => hs x (List.mem_of_mem_take hx)) (by simp [hl])
  have hAT : A ≤ T := zipWith_abs_sum _ _ (fun x hx => hb x (List.mem_of_mem_drop (List.mem_of_mem_take hx)))
    (fun x hx => hs x (List.mem_of_mem_drop (List.mem_of_mem_take hx))) (by unfold window; simp [hl])
  have hA0 : 0 ≤ A := List.sum_nonneg (by
    intro x hx
    obtain ⟨a, _, b, _, rfl⟩ := mem_zipWith_exists _ _ _ _ hx
    exact abs_nonneg _)
  have hC0 : 0 ≤ C := add_nonneg (take_sum_nonneg buy hb _) (take_sum_nonneg sell hs _)
  have hTC : T ≤ C := by
    have h1 := window_sum_sub buy w i hw
    have h2 := window_sum_sub sell w i hw
    have h3 := take_sum_nonneg buy hb (i + 1 - w)
    have h4 := take_sum_nonneg sell hs (i + 1 - w)
    show (window buy w i).sum + (window sell w i).sum ≤ (buy.take (i + 1)).sum + (sell.take (i + 1)).sum
    linarith
  unfold vpinAt64
  simp only
  rw [get buy _ (by omega), get buy _ (by omega), get sell _ (by omega), get sell _ (by omega), get _ _ (by rw [hz]; omega),
    get _ _ (by rw [hz]; omega)]
  generalize f64 (sum64 (buy.take (i + 1)) - sum64 (buy.take (i + 1 - w))) = x at *
  generalize f64 (sum64 (sell.take (i + 1)) - sum64 (sell.take (i + 1 - w))) = y at *
  generalize f64 (sum64 ((List.zipWith (fun b s => |f64 (b - s)|) buy sell).take (i + 1)) -
    sum64 ((List.zipWith (fun b s => |f64 (b - s)|) buy sell).take (i + 1 - w))) = z at *
  -- numerator and denominator
  have hε : (0 : ℚ) ≤ (8 / 3 * ((i + 2 : Nat) : ℚ) + 2) / 2 ^ 53 := by positivity
  have ez : |z - A| ≤ (8 / 3 * ((i + 2 : Nat) : ℚ) + 2) / 2 ^ 53 * C := ea.trans (mul_le_mul_of_nonneg_left hAC hε)
  have exy : |x + y - T| ≤ (8 / 3 * ((i + 2 : Nat) : ℚ) + 2) / 2 ^ 53 * C := by
    have t := abs_add_le (x - (window buy w i).sum) (y - (window sell w i).sum)
    rw [show x - (window buy w i).sum + (y - (window sell w i).sum) = x + y - T by show _ = x + y - ((window buy w i).sum + (window sell w i).sum); ring] at t
    have : (8 / 3 * ((i + 2 : Nat) : ℚ) + 2) / 2 ^ 53 * C = (8 / 3 * ((i + 2 : Nat) : ℚ) + 2) / 2 ^ 53 * (buy.take (i + 1)).sum +
        (8 / 3 * ((i + 2 : Nat) : ℚ) + 2) / 2 ^ 53 * (sell.take (i + 1)).sum := mul_add _ _ _
    linarith
  clear_value C T A
  clear eb es ea ra za ze hz rds get hAC
  push_cast at ez exy
  have hsmall : (8 / 3 * ((i : ℚ) + 2) + 2) / 2 ^ 53 * C ≤ C := by
    have : (8 / 3 * ((i : ℚ) + 2) + 2) / 2 ^ 53 ≤ 1 := by
      rw [div_le_one (by norm_num)]
      linarith
    have := mul_le_mul_of_nonneg_right this hC0
    linarith
  have et : |f64 (x + y) - T| ≤ (8 / 3 * ((i : ℚ) + 2) + 4) / 2 ^ 53 * C := by
    have e := f64_relErr (x + y)
    have g : |x + y| ≤ 2 * C := by
      have := abs_le.mp exy
      rw [abs_le]; constructor <;> linarith
    have g2 : |x + y| / 2 ^ 53 ≤ 2 * C / 2 ^ 53 := div_le_div_of_nonneg_right g (by norm_num)
    have t := abs_add_le (f64 (x + y) - (x + y)) (x + y - T)
    rw [sub_add_sub_cancel] at t
    have f : (8 / 3 * ((i : ℚ) + 2) + 4) / 2 ^ 53 * C = (8 / 3 * ((i : ℚ) + 2) + 2) / 2 ^ 53 * C + 2 * C / 2 ^ 53 := by ring
    linarith
  generalize f64 (x + y) = t at *
  clear exy x y
  have q0 : 0 ≤ C / T := div_nonneg hC0 hT0.le
  have hquarter : (8 / 3 * ((i : ℚ) + 2) + 4) / 2 ^ 53 * (C / T) ≤ 1 / 4 := by
    have h1 : 16 * ((i : ℚ) + 3) * (C / T) ≤ 2 ^ 53 := by
      rw [mul_div_assoc', div_le_iff₀ hT0]; exact hC
    have h2 : (8 / 3 * ((i : ℚ) + 2) + 4) * (C / T) ≤ 4 * ((i : ℚ) + 3) * (C / T) := mul_le_mul_of_nonneg_right (by linarith) q0
    rw [div_mul_eq_mul_div, div_le_iff₀ (by norm_num)]
    linarith
  have cT : ∀ a : ℚ, a * C = a * (C / T) * T := by intro a; field_simp
  have hq := quot_absErr A z T t ((8 / 3 * ((i : ℚ) + 2) + 2) / 2 ^ 53 * (C / T)) ((8 / 3 * ((i : ℚ) + 2) + 4) / 2 ^ 53 * (C / T)) hT0 hA0 hAT
    (by rw [← cT]; exact ez) (by rw [← cT]; exact et) hquarter (by positivity)
  have htpos : f64 (1 / 1000000000) < t := by
    have h1 := (abs_le.mp et).1
    rw [cT] at h1
    have h2 := mul_le_mul_of_nonneg_right hquarter hT0.le
    have : f64 (1 / 1000000000) < 3 / 2000000000 := by decide +kernel
    linarith
  rw [if_pos htpos]
  refine ⟨_, rfl, ?_⟩
  have x0 : 0 ≤ A / T := div_nonneg hA0 hT0.le
  have x1 : A / T ≤ 1 := by rw [div_le_one hT0]; exact hAT
  generalize A / T = v at *
  generalize z / t = g at *
  have hq2 : |g - v| ≤ 8 * ((i : ℚ) + 3) * (C / T) / 2 ^ 53 := by
    refine hq.trans ?_
    have e : 4 / 3 * ((8 / 3 * ((i : ℚ) + 2) + 2) / 2 ^ 53 * (C / T) + (8 / 3 * ((i : ℚ) + 2) + 4) / 2 ^ 53 * (C / T)) =
        4 / 3 * (16 / 3 * ((i : ℚ) + 2) + 6) * (C / T) / 2 ^ 53 := by ring
    rw [e]
    exact div_le_div_of_nonneg_right (mul_le_mul_of_nonneg_right (by linarith) q0) (by norm_num)
  have hg : |g| ≤ 2 := by
    have h1 := abs_le.mp hq
    have h3 : (8 / 3 * ((i : ℚ) + 2) + 2) / 2 ^ 53 * (C / T) ≤ (8 / 3 * ((i : ℚ) + 2) + 4) / 2 ^ 53 * (C / T) :=
      mul_le_mul_of_nonneg_right (div_le_div_of_nonneg_right (by linarith) (by norm_num)) q0
    rw [abs_le]; constructor <;> linarith [h1.1, h1.2]
  have e1 := f64_relErr g
  have e2 := rndBits_relErr 24 (f64 g)
  change |f32 (f64 g) - f64 g| ≤ |f64 g| / 2 ^ 24 at e2
  have g1 : |g| / 2 ^ 53 ≤ 2 / 2 ^ 53 := div_le_div_of_nonneg_right hg (by norm_num)
  have g2 : |f64 g| ≤ 2 + 2 / 2 ^ 53 := by
    have := abs_add_le (f64 g - g) g
    rw [sub_add_cancel] at this
    linarith
  have g3 : |f64 g| / 2 ^ 24 ≤ (2 + 2 / 2 ^ 53) / 2 ^ 24 := div_le_div_of_nonneg_right g2 (by norm_num)
  have t1 := abs_add_le (f32 (f64 g) - f64 g) (f64 g - g)
  rw [sub_add_sub_cancel] at t1
  have t2 := abs_add_le (f32 (f64 g) - g) (g - v)
  rw [sub_add_sub_cancel] at t2
  have : ((2 + 2 / 2 ^ 53) / 2 ^ 24 + 2 / 2 ^ 53 : ℚ) ≤ 1 / 2 ^ 22 := by norm_num
  linarith

example : vpinAt64 [3, 1] [1, 1] 2 1 = some (f32 (f64 (1 / 3))) ∧ 2 / 1000000000 < (3 + 1 + (1 + 1) : ℚ) := by
  constructor
  · decide +kernel
  · norm_num

end FinML
