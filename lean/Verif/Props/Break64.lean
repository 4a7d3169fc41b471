/-
C132: the structural-break statistic in float64.
-/
import Verif.Model.Float64Break
import Verif.Props.TradeSize64
import Verif.Props.CusumTest
import Verif.Props.Dispersion64

set_option linter.unusedSectionVars false

namespace FinML

theorem Rounds.mul {k j : Nat} {x y a b : ℚ} (hx : 0 ≤ x) (ha : 0 ≤ a) (h : Rounds k x y) (g : Rounds j a b) :
    Rounds (k + j) (x * a) (y * b) := by
  have hy := h.nonneg hx
  have hb := g.nonneg ha
  constructor
  · calc x * a * (1 - 1 / 2 ^ 53) ^ (k + j) = (x * (1 - 1 / 2 ^ 53) ^ k) * (a * (1 - 1 / 2 ^ 53) ^ j) := by rw [pow_add]; ring
      _ ≤ y * b := mul_le_mul h.1 g.1 (mul_nonneg ha (lowPow_nonneg j)) hy
  · calc y * b ≤ (x * (1 + 1 / 2 ^ 53) ^ k) * (a * (1 + 1 / 2 ^ 53) ^ j) :=
        mul_le_mul h.2 g.2 hb (mul_nonneg hx (highPow_pos k).le)
      _ = _ := by rw [pow_add]; ring

theorem rounds_f64 {x : ℚ} (hx : 0 ≤ x) : Rounds 1 x (f64 x) := (Rounds.refl x).f64 hx

/-- The square of a rounded number. -/
theorem rounds_sq (x : ℚ) : Rounds 2 (x ^ 2) (f64 x * f64 x) := by
  have h := (rounds_f64 (abs_nonneg x)).mul (abs_nonneg x) (abs_nonneg x) (rounds_f64 (abs_nonneg x))
  rwa [f64_abs, abs_mul_abs_self, abs_mul_abs_self, ← sq] at h

theorem SqrtRounded.rounds {s : ℚ → ℚ} (hs : SqrtRounded s) {x : ℚ} (hx : 0 ≤ x) : Rounds 2 x (s x * s x) := by
  have := (hs x hx).2
  rwa [sq (s x)] at this

theorem Rounds.trans {k j : Nat} {x y z : ℚ} (hx : 0 ≤ x) (h : Rounds k x y) (g : Rounds j y z) : Rounds (k + j) x z := by
  constructor
  · calc x * (1 - 1 / 2 ^ 53) ^ (k + j) = x * (1 - 1 / 2 ^ 53) ^ k * (1 - 1 / 2 ^ 53) ^ j := by rw [pow_add]; ring
      _ ≤ y * (1 - 1 / 2 ^ 53) ^ j := mul_le_mul_of_nonneg_right h.1 (lowPow_nonneg j)
      _ ≤ z := g.1
  · calc z ≤ y * (1 + 1 / 2 ^ 53) ^ j := g.2
      _ ≤ x * (1 + 1 / 2 ^ 53) ^ k * (1 + 1 / 2 ^ 53) ^ j := mul_le_mul_of_nonneg_right h.2 (highPow_pos j).le
      _ = _ := by rw [pow_add]; ring

/-- Sum of rounded squared differences. -/
theorem cumSqDiff64_rounds (y : List ℚ) (k : Nat) : Rounds (k + 4) (cumSqDiff y k) (cumSqDiff64 y k) := by
  have hterm : ∀ j ∈ List.range (k + 1), 0 ≤ (y.getD (j + 1) 0 - y.getD j 0) ^ 2 ∧
      (y.getD (j + 1) 0 - y.getD j 0) ^ 2 * (1 - 1 / 2 ^ 53) ^ 3 ≤ sqDiff64 y j ∧
      sqDiff64 y j ≤ (y.getD (j + 1) 0 - y.getD j 0) ^ 2 * (1 + 1 / 2 ^ 53) ^ 3 := by
    intro j _
    have := (rounds_sq (y.getD (j + 1) 0 - y.getD j 0)).f64 (sq_nonneg _)
    exact ⟨sq_nonneg _, this.1, this.2⟩
  have h := fold64_bounds (sqDiff64 y) (fun j => (y.getD (j + 1) 0 - y.getD j 0) ^ 2) (1 / 2 ^ 53) ((1 - 1 / 2 ^ 53) ^ 3)
    ((1 + 1 / 2 ^ 53) ^ 3) rfl (lowPow_nonneg 3) (highPow_pos 3).le (List.range (k + 1)) 0 0 0 hterm le_rfl (by simp) (by simp)
  have e : (List.range (k + 1)).foldl (fun s t => f64 (s + sqDiff64 y t)) 0 = cumSqDiff64 y k := by
    unfold cumSqDiff64 sum64; rw [List.foldl_map]
  rw [e, zero_add, zero_add, List.length_range, ← pow_add, ← pow_add] at h
  unfold Rounds cumSqDiff
  rw [show k + 4 = 3 + (k + 1) by ring]
  exact h

theorem cumSqDiff_nonneg (y : List ℚ) (k : Nat) : 0 ≤ cumSqDiff y k := by
  unfold cumSqDiff
  refine List.sum_nonneg (fun x hx => ?_)
  obtain ⟨j, _, rfl⟩ := List.mem_map.mp hx
  exact sq_nonneg _

/-- The variance estimate without rounding: the first `t` squared increments over `t - 1`. -/
def breakVar (y : List ℚ) (t : Nat) : ℚ := cumSqDiff y (t - 1) / ((t - 1 : Nat) : ℚ)

theorem breakVar_nonneg (y : List ℚ) (t : Nat) : 0 ≤ breakVar y t := div_nonneg (cumSqDiff_nonneg y _) (Nat.cast_nonneg _)

/-- The square of the rounded standard deviation. -/
theorem breakSigma64_rounds {sq : ℚ → ℚ} (hs : SqrtRounded sq) (y : List ℚ) (t : Nat) (ht : 1 ≤ t) :
    0 ≤ breakSigma64 sq y t ∧ Rounds (t + 6) (breakVar y t) (breakSigma64 sq y t * breakSigma64 sq y t) := by
  have h0 := cumSqDiff_nonneg y (t - 1)
  have h1 : Rounds (t - 1 + 4 + 1) (breakVar y t) (f64 (cumSqDiff64 y (t - 1) / ((t - 1 : Nat) : ℚ))) :=
    ((cumSqDiff64_rounds y (t - 1)).div (Nat.cast_nonneg _)).f64 (breakVar_nonneg y t)
  have hnn := h1.nonneg (breakVar_nonneg y t)
  refine ⟨(hs _ hnn).1, ?_⟩
  have := h1.trans (breakVar_nonneg y t) (hs.rounds hnn)
  rwa [show t - 1 + 4 + 1 + 2 = t + 6 by omega] at this

theorem breakDen64_rounds {sq : ℚ → ℚ} (hs : SqrtRounded sq) (y : List ℚ) (t : Nat) (ht : 1 ≤ t) (n : Nat) :
    0 ≤ breakDen64 sq t (breakSigma64 sq y t) n ∧
    Rounds (t + 10) (breakVar y t * ((t - n : Nat) : ℚ))
      (breakDen64 sq t (breakSigma64 sq y t) n * breakDen64 sq t (breakSigma64 sq y t) n) := by
  obtain ⟨s0, s1⟩ := breakSigma64_rounds hs y t ht
  have hV := breakVar_nonneg y t
  have hn : (0 : ℚ) ≤ ((t - n : Nat) : ℚ) := Nat.cast_nonneg _
  have q := hs.rounds hn
  have q0 := (hs _ hn).1
  unfold breakDen64
  refine ⟨f64_nonneg (mul_nonneg s0 q0), ?_⟩
  have m := s1.mul hV hn q
  have r := rounds_sq (breakSigma64 sq y t * sq ((t - n : Nat) : ℚ))
  rw [show (breakSigma64 sq y t * sq ((t - n : Nat) : ℚ)) ^ 2 =
    breakSigma64 sq y t * breakSigma64 sq y t * (sq ((t - n : Nat) : ℚ) * sq ((t - n : Nat) : ℚ)) by ring] at r
  have := m.trans (mul_nonneg hV hn) r
  rwa [show t + 6 + 2 + 2 = t + 10 by ring] at this

/-- The upward departure from start index `n` as computed. -/
def departUp64 (sq : ℚ → ℚ) (y : List ℚ) (t : Nat) (sigma : ℚ) (n : Nat) : ℚ :=
  f64 (f64 (max 0 (y.getD t 0 - y.getD n 0)) / breakDen64 sq t sigma n)

/-- The downward departure from start index `n` as computed. -/
def departDown64 (sq : ℚ → ℚ) (y : List ℚ) (t : Nat) (sigma : ℚ) (n : Nat) : ℚ :=
  f64 (f64 (max 0 (y.getD n 0 - y.getD t 0)) / breakDen64 sq t sigma n)

theorem f64_max_zero (x : ℚ) : max 0 (f64 x) = f64 (max 0 x) := by rw [f64_max, f64_zero]

theorem f64_neg_min (a b : ℚ) : -(min 0 (f64 (a - b))) = f64 (max 0 (b - a)) := by
  rw [← f64_max_zero, ← neg_sub a b, f64_neg]
  rcases le_total 0 (f64 (a - b)) with h | h
  · rw [min_eq_left h, max_eq_left (by linarith), neg_zero]
  · rw [min_eq_right h, max_eq_right (by linarith)]

theorem sntFold64_split (lg sq : ℚ → ℚ) (y : List ℚ) (t : Nat) (sigma : ℚ) (ns : List Nat) (s : Snt ℚ) :
    let ok := ns.filter (fun n => decide (f64 (1 / 10 ^ 16) < breakDen64 sq t sigma n))
    let r := ns.foldl (sntStep64 lg sq y t sigma) s
    (r.up, r.critUp) = ok.foldl (fun (s : ℚ × ℚ) n => if departUp64 sq y t sigma n > s.1 then
        (departUp64 sq y t sigma n, breakCrit64 lg sq t n) else s) (s.up, s.critUp) ∧
    (r.down, r.critDown) = ok.foldl (fun (s : ℚ × ℚ) n => if departDown64 sq y t sigma n > s.1 then
        (departDown64 sq y t sigma n, breakCrit64 lg sq t n) else s) (s.down, s.critDown) := by
  induction ns generalizing s with
  | nil => exact ⟨rfl, rfl⟩
  | cons n t' ih =>
    simp only [List.foldl_cons]
    by_cases h : breakDen64 sq t sigma n ≤ f64 (1 / 10 ^ 16)
    · rw [List.filter_cons_of_neg (by simpa using h)]
      have : sntStep64 lg sq y t sigma s n = s := by
        unfold sntStep64; simp only []; rw [if_pos h]
      rw [this]
      exact ih s
    · rw [List.filter_cons_of_pos (by simpa using h), List.foldl_cons, List.foldl_cons]
      have hstep : (((sntStep64 lg sq y t sigma s n).up, (sntStep64 lg sq y t sigma s n).critUp)
            = if departUp64 sq y t sigma n > s.up then (departUp64 sq y t sigma n, breakCrit64 lg sq t n)
              else (s.up, s.critUp)) ∧
          (((sntStep64 lg sq y t sigma s n).down, (sntStep64 lg sq y t sigma s n).critDown)
            = if departDown64 sq y t sigma n > s.down then (departDown64 sq y t sigma n, breakCrit64 lg sq t n)
              else (s.down, s.critDown)) := by
        unfold sntStep64
        simp only []
        rw [if_neg h, f64_neg_min, f64_max_zero]
        rw [show f64 (f64 (max 0 (y.getD t 0 - y.getD n 0)) / breakDen64 sq t sigma n) = departUp64 sq y t sigma n from rfl,
          show f64 (f64 (max 0 (y.getD n 0 - y.getD t 0)) / breakDen64 sq t sigma n) = departDown64 sq y t sigma n from rfl]
        generalize departUp64 sq y t sigma n = U
        generalize departDown64 sq y t sigma n = D
        by_cases h1 : U > s.up
        · rw [if_pos h1, if_pos h1]
          by_cases h2 : D > s.down
          · rw [if_pos h2, if_pos h2]; exact ⟨rfl, rfl⟩
          · rw [if_neg h2, if_neg h2]; exact ⟨rfl, rfl⟩
        · rw [if_neg h1, if_neg h1]
          by_cases h2 : D > s.down
          · rw [if_pos h2, if_pos h2]; exact ⟨rfl, rfl⟩
          · rw [if_neg h2, if_neg h2]; exact ⟨rfl, rfl⟩
      rw [← hstep.1, ← hstep.2]
      exact ih _

/-- **C132.** In float64 too, the statistic is the largest computed departure among the start indices `1, …, t-2` with usable denominator,
and the critical value belongs to its first maximiser. -/
theorem C132_first_maximum (lg sq : ℚ → ℚ) (y : List ℚ) (t : Nat) (sigma : ℚ) (hs : 0 < sigma) :
    let ns := ((List.range (t - 2)).map (· + 1)).filter (fun n => decide (f64 (1 / 10 ^ 16) < breakDen64 sq t sigma n))
    let r := compMaxSnt64 lg sq y t sigma
    (ns = [] ∧ r = ⟨-(f64 (1 / 1000000)), -(f64 (1 / 1000000)), 0, 0⟩) ∨
      (FirstMax (departUp64 sq y t sigma) (breakCrit64 lg sq t) ns r.up r.critUp ∧
       FirstMax (departDown64 sq y t sigma) (breakCrit64 lg sq t) ns r.down r.critDown) := by
  intro ns r
  by_cases ht : t < 1
  · left
    have h0 : t - 2 = 0 := by omega
    refine ⟨?_, ?_⟩
    · show (((List.range (t - 2)).map (· + 1)).filter _) = []
      rw [h0]; rfl
    · show compMaxSnt64 lg sq y t sigma = _
      unfold compMaxSnt64
      rw [if_pos (Or.inl ht)]; rfl
  · have hr : r = ((List.range (t - 2)).map (· + 1)).foldl (sntStep64 lg sq y t sigma) sntInit64 := by
      show compMaxSnt64 lg sq y t sigma = _
      unfold compMaxSnt64
      rw [if_neg (by rw [not_or]; exact ⟨ht, not_le.mpr hs⟩)]
    obtain ⟨s1, s2⟩ := sntFold64_split lg sq y t sigma ((List.range (t - 2)).map (· + 1)) sntInit64
    rw [← hr] at s1 s2
    have hden : ∀ n ∈ ns, 0 < breakDen64 sq t sigma n := by
      intro n hn
      have := (List.mem_filter.mp hn).2
      rw [decide_eq_true_eq] at this
      exact lt_of_le_of_lt (f64_nonneg (by norm_num)) this
    have hposU : ∀ n ∈ ns, 0 ≤ departUp64 sq y t sigma n :=
      fun n hn => f64_nonneg (div_nonneg (f64_nonneg (le_max_left _ _)) (hden n hn).le)
    have hposD : ∀ n ∈ ns, 0 ≤ departDown64 sq y t sigma n :=
      fun n hn => f64_nonneg (div_nonneg (f64_nonneg (le_max_left _ _)) (hden n hn).le)
    have hneg : -(f64 (1 / 1000000)) < 0 := by
      have := f64_down (show (0 : ℚ) ≤ 1 / 1000000 by norm_num)
      have : (0 : ℚ) < 1 / 1000000 * (1 - 1 / 2 ^ 53) := by norm_num
      linarith
    have u := foldl_runMax (departUp64 sq y t sigma) (breakCrit64 lg sq t) ns (-(f64 (1 / 1000000))) 0 hposU hneg
    have d := foldl_runMax (departDown64 sq y t sigma) (breakCrit64 lg sq t) ns (-(f64 (1 / 1000000))) 0 hposD hneg
    simp only [] at u d
    have e1 : (r.up, r.critUp) = ns.foldl (fun (s : ℚ × ℚ) n => if departUp64 sq y t sigma n > s.1 then
        (departUp64 sq y t sigma n, breakCrit64 lg sq t n) else s) (-(f64 (1 / 1000000)), 0) := s1
    have e2 : (r.down, r.critDown) = ns.foldl (fun (s : ℚ × ℚ) n => if departDown64 sq y t sigma n > s.1 then
        (departDown64 sq y t sigma n, breakCrit64 lg sq t n) else s) (-(f64 (1 / 1000000)), 0) := s2
    rw [← e1] at u
    rw [← e2] at d
    rcases u with ⟨u1, u2⟩ | u
    · left
      refine ⟨u1, ?_⟩
      rcases d with ⟨_, d2⟩ | ⟨pre, post, m, d2, _⟩
      · obtain ⟨a1, a2⟩ := Prod.mk.inj u2
        obtain ⟨a3, a4⟩ := Prod.mk.inj d2
        have hext : ∀ x : Snt ℚ, x.up = -(f64 (1 / 1000000)) → x.critUp = 0 → x.down = -(f64 (1 / 1000000)) → x.critDown = 0 →
            x = ⟨-(f64 (1 / 1000000)), -(f64 (1 / 1000000)), 0, 0⟩ := by
          rintro ⟨_, _, _, _⟩ h1 h2 h3 h4
          simp only [] at h1 h2 h3 h4
          rw [h1, h2, h3, h4]
        exact hext r a1 a2 a3 a4
      · rw [u1] at d2; simp at d2
    · rcases d with ⟨d1, _⟩ | d
      · obtain ⟨pre, post, m, d2, _⟩ := u
        rw [d1] at d2; simp at d2
      · exact Or.inr ⟨u, d⟩

example : compMaxSnt64 (fun _ => f64 (4 / 10)) (fun x => if x = 5 then 7 else 1) [0, 1, 5, 2, 4] 4 2 = ⟨3 / 2, 1 / 2, 7, 7⟩ := by decide +kernel

/-- The square of a computed departure `D / (sigma sqrt(t - n))` with its error. -/
theorem depart64_error {sq : ℚ → ℚ} (hs : SqrtRounded sq) (y : List ℚ) (t : Nat) (ht : 1 ≤ t) (htb : t ≤ 2 ^ 40) (n : Nat) (hn : n < t)
    (hV : 0 < breakVar y t) (D : ℚ) (hD : 0 ≤ D) :
    let den := breakDen64 sq t (breakSigma64 sq y t) n
    D ^ 2 / (breakVar y t * ((t - n : Nat) : ℚ)) * (1 - ((t : ℚ) + 14) / 2 ^ 53) ≤ f64 (f64 D / den) ^ 2 ∧
    f64 (f64 D / den) ^ 2 ≤ D ^ 2 / (breakVar y t * ((t - n : Nat) : ℚ)) * (1 + 4 / 3 * ((t : ℚ) + 14) / 2 ^ 53) := by
  intro den
  obtain ⟨d0, d1⟩ := breakDen64_rounds hs y t ht n
  have hm : (0 : ℚ) < ((t - n : Nat) : ℚ) := by exact_mod_cast Nat.sub_pos_of_lt hn
  have hE : 0 < breakVar y t * ((t - n : Nat) : ℚ) := mul_pos hV hm
  have hdd : 0 < den * den := lt_of_lt_of_le (mul_pos hE (lowPow_pos _)) d1.1
  have a := rounds_sq (f64 D / den)
  have b := rounds_sq D
  have e : (f64 D / den) ^ 2 = f64 D * f64 D / (den * den) := by rw [div_pow, pow_two, pow_two]
  rw [e] at a
  rw [pow_two (f64 (f64 D / den))]
  have hD2 : 0 ≤ D ^ 2 := sq_nonneg D
  have x0 : 0 ≤ D ^ 2 / (breakVar y t * ((t - n : Nat) : ℚ)) := div_nonneg hD2 hE.le
  have hlo : D ^ 2 / (breakVar y t * ((t - n : Nat) : ℚ)) * ((1 - 1 / 2 ^ 53) ^ 4 / (1 + 1 / 2 ^ 53) ^ (t + 10)) ≤
      f64 (f64 D / den) * f64 (f64 D / den) := by
    refine le_trans ?_ a.1
    have : D ^ 2 * (1 - 1 / 2 ^ 53) ^ 2 / (breakVar y t * ((t - n : Nat) : ℚ) * (1 + 1 / 2 ^ 53) ^ (t + 10)) ≤ f64 D * f64 D / (den * den) :=
      div_le_div₀ (mul_self_nonneg _) b.1 hdd d1.2
    have := mul_le_mul_of_nonneg_right this (lowPow_nonneg 2)
    refine le_trans (le_of_eq ?_) this
    have := (highPow_pos (t + 10)).ne'
    field_simp
  have hup : f64 (f64 D / den) * f64 (f64 D / den) ≤
      D ^ 2 / (breakVar y t * ((t - n : Nat) : ℚ)) * ((1 + 1 / 2 ^ 53) ^ 4 / (1 - 1 / 2 ^ 53) ^ (t + 10)) := by
    refine le_trans a.2 ?_
    have : f64 D * f64 D / (den * den) ≤ D ^ 2 * (1 + 1 / 2 ^ 53) ^ 2 / (breakVar y t * ((t - n : Nat) : ℚ) * (1 - 1 / 2 ^ 53) ^ (t + 10)) :=
      div_le_div₀ (mul_nonneg hD2 (highPow_pos 2).le) b.2 (mul_pos hE (lowPow_pos _)) d1.1
    have := mul_le_mul_of_nonneg_right this (highPow_pos 2).le
    refine le_trans this (le_of_eq ?_)
    have := (lowPow_pos (t + 10)).ne'
    field_simp
  constructor
  · refine le_trans (mul_le_mul_of_nonneg_left ?_ x0) hlo
    have := factor_down 4 (t + 10)
    refine le_trans (le_of_eq ?_) this
    push_cast; ring
  · refine le_trans hup (mul_le_mul_of_nonneg_left ?_ x0)
    have := factor_up 4 (t + 10) (by omega)
    refine le_trans this (le_of_eq ?_)
    push_cast; ring

/-- With a variance of at least `10^-30` no start index is skipped. -/
theorem breakDen64_large {sq : ℚ → ℚ} (hs : SqrtRounded sq) (y : List ℚ) (t : Nat) (ht : 1 ≤ t) (htb : t ≤ 2 ^ 40) (n : Nat) (hn : n < t)
    (hV : 1 / 10 ^ 30 ≤ breakVar y t) : f64 (1 / 10 ^ 16) < breakDen64 sq t (breakSigma64 sq y t) n := by
  obtain ⟨d0, d1⟩ := breakDen64_rounds hs y t ht n
  have hm : (1 : ℚ) ≤ ((t - n : Nat) : ℚ) := by exact_mod_cast Nat.sub_pos_of_lt hn
  have hup := f64_up (show (0 : ℚ) ≤ 1 / 10 ^ 16 by norm_num)
  have hlow := factor_down (t + 10) 0
  rw [pow_zero, div_one] at hlow
  have htq : ((t + 10 + 0 : Nat) : ℚ) ≤ 2 ^ 41 := by exact_mod_cast (by omega)
  have hhalf : (1 / 2 : ℚ) ≤ (1 - 1 / 2 ^ 53) ^ (t + 10) := by
    refine le_trans ?_ hlow
    have : ((t + 10 + 0 : Nat) : ℚ) / 2 ^ 53 ≤ 2 ^ 41 / 2 ^ 53 := div_le_div_of_nonneg_right htq (by norm_num)
    have : (2 : ℚ) ^ 41 / 2 ^ 53 ≤ 1 / 2 := by norm_num
    linarith
  have hE : (1 / 10 ^ 30 : ℚ) ≤ breakVar y t * ((t - n : Nat) : ℚ) := by
    have := mul_le_mul hV hm (by norm_num) (le_trans (by norm_num) hV)
    linarith
  have hsq : (1 / 10 ^ 30 * (1 / 2) : ℚ) ≤ breakDen64 sq t (breakSigma64 sq y t) n * breakDen64 sq t (breakSigma64 sq y t) n :=
    le_trans (mul_le_mul hE hhalf (by norm_num) (le_trans (by norm_num) hE)) d1.1
  by_contra hc
  have hle := (not_lt.mp hc).trans hup
  have := mul_self_le_mul_self d0 hle
  have : (1 / 10 ^ 16 * (1 + 1 / 2 ^ 53) * (1 / 10 ^ 16 * (1 + 1 / 2 ^ 53)) : ℚ) < 1 / 10 ^ 30 * (1 / 2) := by norm_num
  linarith

/-- **C132.** Accuracy of the statistic at index `t` of a float64 log-price series with a correctly rounded square root.  If the variance
estimate is at least `10^-30`, the squared upward statistic is, up to the relative error `4/3 (t + 14) 2^-53`, the largest of
`max(0, y_t - y_n)² / (var (t - n))` over the start indices `1, …, t - 2`; it is at least `1 - (t + 14) 2^-53` times each of them and at most
`1 + 4/3 (t + 14) 2^-53` times the one whose critical value is returned.  The downward statistic likewise. -/
theorem C132_statistic (lg sq : ℚ → ℚ) (hs : SqrtRounded sq) (y : List ℚ) (t : Nat) (ht : 3 ≤ t) (htb : t ≤ 2 ^ 40)
    (hV : 1 / 10 ^ 30 ≤ breakVar y t) :
    let r := sntAt64 lg sq y t
    let up := fun n : Nat => max 0 (y.getD t 0 - y.getD n 0) ^ 2 / (breakVar y t * ((t - n : Nat) : ℚ))
    let down := fun n : Nat => max 0 (y.getD n 0 - y.getD t 0) ^ 2 / (breakVar y t * ((t - n : Nat) : ℚ))
    (0 ≤ r.up ∧ (∀ n, 1 ≤ n → n + 2 ≤ t → up n * (1 - ((t : ℚ) + 14) / 2 ^ 53) ≤ r.up ^ 2) ∧
      ∃ m, 1 ≤ m ∧ m + 2 ≤ t ∧ r.up ^ 2 ≤ up m * (1 + 4 / 3 * ((t : ℚ) + 14) / 2 ^ 53) ∧ r.critUp = breakCrit64 lg sq t m) ∧
    (0 ≤ r.down ∧ (∀ n, 1 ≤ n → n + 2 ≤ t → down n * (1 - ((t : ℚ) + 14) / 2 ^ 53) ≤ r.down ^ 2) ∧
      ∃ m, 1 ≤ m ∧ m + 2 ≤ t ∧ r.down ^ 2 ≤ down m * (1 + 4 / 3 * ((t : ℚ) + 14) / 2 ^ 53) ∧ r.critDown = breakCrit64 lg sq t m) := by
  intro r up down
  have hVp : 0 < breakVar y t := lt_of_lt_of_le (by norm_num) hV
  obtain ⟨s0, s1⟩ := breakSigma64_rounds hs y t (by omega)
  have hsig : 0 < breakSigma64 sq y t := by
    refine lt_of_le_of_ne s0 (fun h => ?_)
    rw [← h] at s1
    have := mul_pos hVp (lowPow_pos (t + 6))
    have := s1.1
    linarith
  have hall : ((List.range (t - 2)).map (· + 1)).filter (fun n => decide (f64 (1 / 10 ^ 16) < breakDen64 sq t (breakSigma64 sq y t) n)) =
      (List.range (t - 2)).map (· + 1) := by
    rw [List.filter_eq_self]
    intro n hn
    obtain ⟨k, hk, rfl⟩ := List.mem_map.mp hn
    rw [List.mem_range] at hk
    exact decide_eq_true (breakDen64_large hs y t (by omega) htb (k + 1) (by omega) hV)
  have hmem : ∀ n, n ∈ (List.range (t - 2)).map (· + 1) ↔ 1 ≤ n ∧ n + 2 ≤ t := by
    intro n
    simp only [List.mem_map, List.mem_range]
    constructor
    · rintro ⟨k, hk, rfl⟩; omega
    · intro h; exact ⟨n - 1, by omega, by omega⟩
  have key : ∀ (D : Nat → ℚ) (best crit : ℚ), (∀ n, 0 ≤ D n) →
      FirstMax (fun n => f64 (f64 (D n) / breakDen64 sq t (breakSigma64 sq y t) n)) (breakCrit64 lg sq t) ((List.range (t - 2)).map (· + 1)) best crit →
      0 ≤ best ∧ (∀ n, 1 ≤ n → n + 2 ≤ t → D n ^ 2 / (breakVar y t * ((t - n : Nat) : ℚ)) * (1 - ((t : ℚ) + 14) / 2 ^ 53) ≤ best ^ 2) ∧
      ∃ m, 1 ≤ m ∧ m + 2 ≤ t ∧ best ^ 2 ≤ D m ^ 2 / (breakVar y t * ((t - m : Nat) : ℚ)) * (1 + 4 / 3 * ((t : ℚ) + 14) / 2 ^ 53) ∧
        crit = breakCrit64 lg sq t m := by
    intro D best crit hD ⟨pre, post, m, e1, e2, e3, e4, e5⟩
    have nn : ∀ n, 0 ≤ f64 (f64 (D n) / breakDen64 sq t (breakSigma64 sq y t) n) := fun n =>
      f64_nonneg (div_nonneg (f64_nonneg (hD n)) (breakDen64_rounds hs y t (by omega) n).1)
    have hm : m ∈ (List.range (t - 2)).map (· + 1) := by rw [e1]; simp
    have hm' := (hmem m).mp hm
    refine ⟨by rw [e2]; exact nn m, ?_, m, hm'.1, hm'.2, ?_, e3⟩
    · intro n h1 h2
      have hn : n ∈ (List.range (t - 2)).map (· + 1) := (hmem n).mpr ⟨h1, h2⟩
      have hle : f64 (f64 (D n) / breakDen64 sq t (breakSigma64 sq y t) n) ≤ best := by
        rw [e1] at hn
        rcases List.mem_append.mp hn with h | h
        · exact (e4 n h).le
        · rcases List.mem_cons.mp h with rfl | h
          · exact le_of_eq e2.symm
          · exact e5 n h
      exact (depart64_error hs y t (by omega) htb n (by omega) hVp (D n) (hD n)).1.trans (pow_le_pow_left₀ (nn n) hle 2)
    · rw [e2]
      exact (depart64_error hs y t (by omega) htb m (by omega) hVp (D m) (hD m)).2
  have h := C132_first_maximum lg sq y t (breakSigma64 sq y t) hsig
  simp only [] at h
  rw [hall] at h
  rcases h with ⟨h1, _⟩ | ⟨h1, h2⟩
  · have := (hmem 1).mpr ⟨le_rfl, by omega⟩
    rw [h1] at this; simp at this
  · exact ⟨key (fun n => max 0 (y.getD t 0 - y.getD n 0)) _ _ (fun n => le_max_left _ _) h1,
      key (fun n => max 0 (y.getD n 0 - y.getD t 0)) _ _ (fun n => le_max_left _ _) h2⟩

/-- Non-vacuity: a rounded square root exists and this series has a large enough variance estimate. -/
example : (∃ s, SqrtRounded s) ∧ 1 / 10 ^ 30 ≤ breakVar [0, 1, 3, 2, 5] 4 := ⟨sqrtRounded_exists, by decide +kernel⟩

/-- **C132.** Rounding does not blur the sign: the upward statistic is 0 exactly when the last log price is not above any of the start
prices, the downward one when it is not below any. -/
theorem C132_zero_iff (lg sq : ℚ → ℚ) (hs : SqrtRounded sq) (y : List ℚ) (t : Nat) (ht : 3 ≤ t) (htb : t ≤ 2 ^ 40)
    (hV : 1 / 10 ^ 30 ≤ breakVar y t) :
    ((sntAt64 lg sq y t).up = 0 ↔ ∀ n, 1 ≤ n → n + 2 ≤ t → y.getD t 0 ≤ y.getD n 0) ∧
    ((sntAt64 lg sq y t).down = 0 ↔ ∀ n, 1 ≤ n → n + 2 ≤ t → y.getD n 0 ≤ y.getD t 0) := by
  obtain ⟨⟨u0, u1, mu, mu1, mu2, mu3, _⟩, ⟨d0, d1, md, md1, md2, md3, _⟩⟩ := C132_statistic lg sq hs y t ht htb hV
  have hVp : 0 < breakVar y t := lt_of_lt_of_le (by norm_num) hV
  have hF : (0 : ℚ) < 1 - ((t : ℚ) + 14) / 2 ^ 53 := by
    have : (t : ℚ) ≤ 2 ^ 40 := by exact_mod_cast htb
    have : ((t : ℚ) + 14) / 2 ^ 53 ≤ (2 ^ 40 + 14) / 2 ^ 53 := div_le_div_of_nonneg_right (by linarith) (by norm_num)
    have : ((2 : ℚ) ^ 40 + 14) / 2 ^ 53 < 1 := by norm_num
    linarith
  have main : ∀ (best : ℚ) (a b : Nat → ℚ), 0 ≤ best →
      (∀ n, 1 ≤ n → n + 2 ≤ t → max 0 (a n - b n) ^ 2 / (breakVar y t * ((t - n : Nat) : ℚ)) * (1 - ((t : ℚ) + 14) / 2 ^ 53) ≤ best ^ 2) →
      ∀ m, 1 ≤ m → m + 2 ≤ t → best ^ 2 ≤ max 0 (a m - b m) ^ 2 / (breakVar y t * ((t - m : Nat) : ℚ)) * (1 + 4 / 3 * ((t : ℚ) + 14) / 2 ^ 53) →
      (best = 0 ↔ ∀ n, 1 ≤ n → n + 2 ≤ t → a n ≤ b n) := by
    intro best a b b0 h1 m m1 m2 m3
    constructor
    · intro e n n1 n2
      have := h1 n n1 n2
      rw [e] at this
      by_contra hc
      have hp : 0 < a n - b n := by linarith [not_le.mp hc]
      have hm : (0 : ℚ) < ((t - n : Nat) : ℚ) := by exact_mod_cast (by omega : 0 < t - n)
      rw [max_eq_right hp.le] at this
      have : 0 < (a n - b n) ^ 2 / (breakVar y t * ((t - n : Nat) : ℚ)) * (1 - ((t : ℚ) + 14) / 2 ^ 53) := by positivity
      linarith
    · intro h
      have := m3
      rw [max_eq_left (by linarith [h m m1 m2])] at this
      have e : (0 : ℚ) ^ 2 / (breakVar y t * ((t - m : Nat) : ℚ)) * (1 + 4 / 3 * ((t : ℚ) + 14) / 2 ^ 53) = 0 := by
        rw [zero_pow two_ne_zero, zero_div, zero_mul]
      rw [e] at this
      exact pow_eq_zero_iff two_ne_zero |>.mp (le_antisymm this (sq_nonneg _))
  exact ⟨main _ (fun _ => y.getD t 0) (fun n => y.getD n 0) u0 u1 mu mu1 mu2 mu3,
    main _ (fun n => y.getD n 0) (fun _ => y.getD t 0) d0 d1 md md1 md2 md3⟩

example : 1 / 10 ^ 30 ≤ breakVar [0, 1, 0, 2, 1] 3 := by decide +kernel

/-- **C132, violation.** The critical value can belong to another start index than the exact maximiser: two departures that differ by less
than the rounding tie, and the earlier index is kept.  The square root of the example is exact at 4 and 9. -/
theorem C132_other_critical_value :
    let y : List ℚ := [1, -2, 1, 1, 1, 1, -(1 + 1 / 2 ^ 52), 1, 1, 1, 1]
    let sq : ℚ → ℚ := fun x => if x = 9 then 3 else if x = 4 then 2 else x
    let r := compMaxSnt (fun x => x) sq y 10 1
    let r64 := compMaxSnt64 (fun x => x) sq y 10 1
    1 < r.up ∧ r.critUp = 46 / 10 + 4 ∧ r64.up = 1 ∧ r64.critUp = f64 (f64 (46 / 10) + 9) := by
  intro y sq r r64
  exact ⟨by decide +kernel, by decide +kernel, by decide +kernel, by decide +kernel⟩

end FinML
