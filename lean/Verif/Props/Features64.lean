/-
C90: running sums drift in float64.  C91: oscillators in float64.
-/
import Verif.Model.Float64Features
import Verif.Props.Ohlcv64

set_option linter.unusedSectionVars false

namespace FinML

/-! ### C90 -/

/-- **C90.** Drift of a running sum.  Each update adds `a - b` with `|a - b| ≤ M`; the exact sum stays in `[-W, W]`.  After `n` updates
the error `e` satisfies `e + C ≤ (1 + u)^n (e₀ + C)` with `C = W + 3 M`, `u = 2^-53`: it grows about linearly, by `u C` per
update. -/
theorem C90_drift_bound (M W : ℚ) (hM : 0 ≤ M) (ps : List (ℚ × ℚ)) (s S : ℚ) (hp : ∀ x ∈ ps, |x.1 - x.2| ≤ M)
    (hW : ∀ n ≤ ps.length, |S + ((ps.take n).map (fun x => x.1 - x.2)).sum| ≤ W) :
    |ps.foldl runStep64 s - (S + (ps.map (fun x => x.1 - x.2)).sum)| + (W + 3 * M)
      ≤ (1 + 1 / 2 ^ 53) ^ ps.length * (|s - S| + (W + 3 * M)) := by
  induction ps generalizing s S with
  | nil => simp
  | cons x ps ih =>
    have hx := hp x (by simp)
    have h0 := hW 0 (by simp)
    simp only [List.take_zero, List.map_nil, List.sum_nil, add_zero] at h0
    have hW' : ∀ n ≤ ps.length, |(S + (x.1 - x.2)) + ((ps.take n).map (fun x => x.1 - x.2)).sum| ≤ W := by
      intro n hn
      have := hW (n + 1) (by simpa using hn)
      rw [List.take_succ_cons, List.map_cons, List.sum_cons, ← add_assoc] at this
      exact this
    have ih' := ih (runStep64 s x) (S + (x.1 - x.2)) (fun y hy => hp y (by simp [hy])) hW'
    rw [List.foldl_cons, List.map_cons, List.sum_cons, ← add_assoc S, List.length_cons, pow_succ, mul_assoc]
    refine ih'.trans (mul_le_mul_of_nonneg_left ?_ (by positivity))
    -- one step
    unfold runStep64
    have e1 := f64_relErr (x.1 - x.2)
    generalize f64 (x.1 - x.2) = d at *
    generalize x.1 - x.2 = D at *
    have e2 := f64_relErr (s + d)
    have u53 : (0 : ℚ) < 1 / 2 ^ 53 := by norm_num
    have hdd : |D| / 2 ^ 53 ≤ M * (1 / 2 ^ 53) := by
      rw [div_eq_mul_one_div]
      exact mul_le_mul_of_nonneg_right hx u53.le
    have hMu : M * (1 / 2 ^ 53) ≤ M := by
      have : M * (1 / 2 ^ 53) ≤ M * 1 := mul_le_mul_of_nonneg_left (by norm_num) hM
      linarith
    have hsd : |s + d| ≤ |s - S| + W + 2 * M := by
      have : s + d = (s - S) + S + D + (d - D) := by ring
      rw [this]
      have t1 := abs_add_le ((s - S) + S + D) (d - D)
      have t2 := abs_add_le ((s - S) + S) D
      have t3 := abs_add_le (s - S) S
      linarith
    have hs2 : |s + d| / 2 ^ 53 ≤ (|s - S| + W + 2 * M) * (1 / 2 ^ 53) := by
      rw [div_eq_mul_one_div]
      exact mul_le_mul_of_nonneg_right hsd u53.le
    have hfin : |f64 (s + d) - (S + D)| ≤ |f64 (s + d) - (s + d)| + |s - S| + |d - D| := by
      have : f64 (s + d) - (S + D) = (f64 (s + d) - (s + d)) + (s - S) + (d - D) := by ring
      rw [this]
      have t1 := abs_add_le ((f64 (s + d) - (s + d)) + (s - S)) (d - D)
      have t2 := abs_add_le (f64 (s + d) - (s + d)) (s - S)
      linarith
    have e : (1 + 1 / 2 ^ 53) * (|s - S| + (W + 3 * M))
        = |s - S| + (W + 3 * M) + ((|s - S| + W + 2 * M) * (1 / 2 ^ 53) + M * (1 / 2 ^ 53)) := by ring
    rw [e]
    linarith

example : (∀ x ∈ ([(1, 2), (2, 1)] : List (ℚ × ℚ)), |x.1 - x.2| ≤ 1) ∧
    ∀ n ≤ 2, |(3 : ℚ) + (([((1 : ℚ), (2 : ℚ)), (2, 1)].take n).map (fun x => x.1 - x.2)).sum| ≤ 3 := by decide +kernel

theorem scanl_fixed {α β : Type} (f : β → α → β) (s : β) (x : α) (h : f s x = s) (m : Nat) :
    (List.replicate m x).scanl f s = List.replicate (m + 1) s := by
  induction m with
  | zero => rfl
  | succ m ih => rw [List.replicate_succ, List.scanl_cons, h, ih]; rfl

/-- The pairs (new, old) for a series that is constant after its first two values, window 2. -/
theorem pairs_two {α : Type} (a b c : α) (m : Nat) :
    ((a :: b :: List.replicate (m + 2) c).drop 2).zip (a :: b :: List.replicate (m + 2) c) = (c, a) :: (c, b) :: List.replicate m (c, c) := by
  have e1 : (a :: b :: List.replicate (m + 2) c).drop 2 = c :: c :: List.replicate m c := rfl
  have e2 : a :: b :: List.replicate (m + 2) c = a :: b :: (List.replicate m c ++ [c, c]) := by
    rw [show [c, c] = List.replicate 2 c from rfl, List.replicate_append_replicate]
  rw [e1]
  rw [e2, List.zip_cons_cons, List.zip_cons_cons, List.zip_eq_zipWith]
  congr 2
  have e3 : List.replicate m c = List.replicate m c ++ [] := by simp
  conv_lhs => rw [e3]
  rw [List.zipWith_append (by simp)]
  simp

theorem runSums64_two (a b c : ℚ) (m : Nat) (h : runStep64 (runStep64 (runStep64 (sum64 [a, b]) (c, a)) (c, b)) (c, c)
      = runStep64 (runStep64 (sum64 [a, b]) (c, a)) (c, b)) :
    runSums64 (a :: b :: List.replicate (m + 2) c) 2
      = sum64 [a, b] :: runStep64 (sum64 [a, b]) (c, a)
        :: List.replicate (m + 1) (runStep64 (runStep64 (sum64 [a, b]) (c, a)) (c, b)) := by
  have e : (a :: b :: List.replicate (m + 2) c).take 2 = [a, b] := rfl
  unfold runSums64
  rw [e, pairs_two, List.scanl_cons, List.scanl_cons, scanl_fixed _ _ _ h]

/-- **C90, violation.** One bar of volume `2^53` at price 1, then bars of volume 1 at price 3 for ever.  With a window of two bars
every later window holds only price 3, but the running sums are 7 and 1 for ever: the reported distance from the average price
is -4/7 (rounded), never 0. -/
theorem C90_vwap_never_recovers (m : Nat) :
    vwapSums64 (1 :: 3 :: List.replicate (m + 2) 3) (9007199254740992 :: 1 :: List.replicate (m + 2) 1) 2
      = (9007199254740996, 9007199254740992) :: (7, 1) :: List.replicate (m + 1) (7, 1) ∧
    vwapDistVal64 3 (7, 1) < -57 / 100 := by
  constructor
  · unfold vwapSums64
    have hz : List.zipWith (fun c v => f64 (c * v)) (1 :: 3 :: List.replicate (m + 2) 3)
        (9007199254740992 :: 1 :: List.replicate (m + 2) 1) = 9007199254740992 :: 3 :: List.replicate (m + 2) 3 := by
      rw [List.zipWith_cons_cons, List.zipWith_cons_cons, List.zipWith_replicate]
      have h1 : f64 (1 * 9007199254740992) = 9007199254740992 := by decide +kernel
      have h2 : f64 (3 * 1) = 3 := by decide +kernel
      rw [h1, h2, Nat.min_self]
    rw [hz, runSums64_two _ _ _ m (by decide +kernel), runSums64_two _ _ _ m (by decide +kernel)]
    have a1 : sum64 [9007199254740992, 3] = 9007199254740996 := by decide +kernel
    have a2 : runStep64 9007199254740996 (3, 9007199254740992) = 7 := by decide +kernel
    have a3 : runStep64 7 (3, 3) = 7 := by decide +kernel
    have b1 : sum64 [9007199254740992, 1] = 9007199254740992 := by decide +kernel
    have b2 : runStep64 9007199254740992 (1, 9007199254740992) = 1 := by decide +kernel
    have b3 : runStep64 1 (1, 1) = 1 := by decide +kernel
    rw [a1, a2, a3, b1, b2, b3, List.zip_cons_cons, List.zip_cons_cons, List.zip_replicate, Nat.min_self]
  · decide +kernel

/-- **C90, violation.** One price of `2^27`, then 1.5, then 3 for ever: with a window of two the variance used for the Bollinger
bands is 3/4 for ever instead of 0. -/
theorem C90_bollinger_never_recovers (m : Nat) :
    bollSums64 (134217728 :: (3 / 2) :: List.replicate (m + 2) 3) 2
      = (134217729 + 1 / 2, 18014398509481988) :: (9 / 2, 12) :: List.replicate (m + 1) (6, 75 / 4) ∧
    bollVar64 2 (6, 75 / 4) = 3 / 4 := by
  constructor
  · unfold bollSums64
    have hz : (134217728 :: (3 / 2) :: List.replicate (m + 2) (3 : ℚ)).map (fun c => f64 (c * c))
        = 18014398509481984 :: (9 / 4) :: List.replicate (m + 2) 9 := by
      rw [List.map_cons, List.map_cons, List.map_replicate]
      have h1 : f64 (134217728 * 134217728) = 18014398509481984 := by decide +kernel
      have h2 : f64 (3 / 2 * (3 / 2)) = 9 / 4 := by decide +kernel
      have h3 : f64 (3 * 3) = 9 := by decide +kernel
      rw [h1, h2, h3]
    rw [hz, runSums64_two _ _ _ m (by decide +kernel), runSums64_two _ _ _ m (by decide +kernel)]
    have a1 : sum64 [134217728, 3 / 2] = 134217729 + 1 / 2 := by decide +kernel
    have a2 : runStep64 (134217729 + 1 / 2) (3, 134217728) = 9 / 2 := by decide +kernel
    have a3 : runStep64 (9 / 2) (3, 3 / 2) = 6 := by decide +kernel
    have b1 : sum64 [18014398509481984, 9 / 4] = 18014398509481988 := by decide +kernel
    have b2 : runStep64 18014398509481988 (9, 18014398509481984) = 12 := by decide +kernel
    have b3 : runStep64 12 (9, 9 / 4) = 75 / 4 := by decide +kernel
    rw [a1, a2, a3, b1, b2, b3, List.zip_cons_cons, List.zip_cons_cons, List.zip_replicate, Nat.min_self]
  · decide +kernel

/-- **C90, violation.** VPIN above one: a bar with buy volume `2^53`, then one with sell volume 3, window one. -/
theorem C90_vpin_above_one : ∃ r, vpinAt64 [9007199254740992, 0] [0, 3] 1 1 = some r ∧ 1 < r := by
  refine ⟨f32 (f64 (4 / 3)), by decide +kernel, by decide +kernel⟩

/-! ### C91 -/

theorem f64_le_of {x : ℚ} {k : Int} (hk : |k| ≤ 2 ^ 53) (h : x ≤ k) : f64 x ≤ k := by
  have := f64_mono h
  rwa [f64_int k hk] at this

theorem f64_ge_of {x : ℚ} {k : Int} (hk : |k| ≤ 2 ^ 53) (h : (k : ℚ) ≤ x) : (k : ℚ) ≤ f64 x := by
  have := f64_mono h
  rwa [f64_int k hk] at this

/-- **C91.** The float64 RSI is in `[0, 100]` for all non-negative average gains and losses. -/
theorem C91_rsi (g l : ℚ) (hg : 0 ≤ g) (r : ℚ) (h : rsiVal64 g l = some r) : 0 ≤ r ∧ r ≤ 100 := by
  unfold rsiVal64 at h
  split at h
  · rename_i hl
    simp only [Option.some.injEq] at h
    have h1 : 0 ≤ f64 (g / l) := f64_nonneg (div_nonneg hg hl.le)
    have h2 : (1 : ℚ) ≤ f64 (1 + f64 (g / l)) := by
      have := f64_ge_of (x := 1 + f64 (g / l)) (k := 1) (by norm_num) (by push_cast; linarith)
      simpa using this
    have h3 : 0 ≤ 100 / f64 (1 + f64 (g / l)) := by positivity
    have h4 : 100 / f64 (1 + f64 (g / l)) ≤ 100 := by
      rw [div_le_iff₀ (by linarith)]
      linarith
    have h5 : 0 ≤ f64 (100 / f64 (1 + f64 (g / l))) := f64_nonneg h3
    have h6 : f64 (100 / f64 (1 + f64 (g / l))) ≤ 100 := by
      have := f64_le_of (k := 100) (by norm_num) (by simpa using h4)
      simpa using this
    rw [← h]
    constructor
    · exact f64_nonneg (by linarith)
    · have := f64_le_of (x := 100 - f64 (100 / f64 (1 + f64 (g / l)))) (k := 100) (by norm_num) (by push_cast; linarith)
      simpa using this
  · cases h

example : rsiVal64 1 3 = some 25 := by decide +kernel

/-- **C91.** Wilder's smoothing keeps values in `[0, 100]`, for windows up to `2^40`. -/
theorem C91_wilder (w : Nat) (hw : 1 ≤ w) (hw2 : w ≤ 2 ^ 40) (avg x : ℚ) (ha : 0 ≤ avg ∧ avg ≤ 100) (hx : 0 ≤ x ∧ x ≤ 100) :
    0 ≤ wilder64 w avg x ∧ wilder64 w avg x ≤ 100 := by
  have hwq : (1 : ℚ) ≤ w := by exact_mod_cast hw
  have m0 : 0 ≤ ((w : ℚ) - 1) * avg := mul_nonneg (by linarith) ha.1
  have m1 : f64 (((w : ℚ) - 1) * avg) ≤ 100 * ((w : ℚ) - 1) := by
    have := f64_le_of (x := ((w : ℚ) - 1) * avg) (k := 100 * ((w : Int) - 1))
      (by rw [abs_of_nonneg (by omega)]; omega) (by push_cast; nlinarith [ha.2])
    push_cast at this
    exact this
  have m2 : 0 ≤ f64 (((w : ℚ) - 1) * avg) := f64_nonneg m0
  have n1 : f64 (f64 (((w : ℚ) - 1) * avg) + x) ≤ 100 * (w : ℚ) := by
    have := f64_le_of (x := f64 (((w : ℚ) - 1) * avg) + x) (k := 100 * (w : Int))
      (by rw [abs_of_nonneg (by omega)]; omega) (by push_cast; linarith [hx.2])
    push_cast at this
    exact this
  have n2 : 0 ≤ f64 (f64 (((w : ℚ) - 1) * avg) + x) := f64_nonneg (by linarith [hx.1])
  unfold wilder64
  constructor
  · exact f64_nonneg (div_nonneg n2 (by linarith))
  · have := f64_le_of (x := f64 (f64 (((w : ℚ) - 1) * avg) + x) / w) (k := 100) (by norm_num) (by
      rw [div_le_iff₀ (by linarith)]; push_cast; exact n1)
    simpa using this

example : 1 ≤ 14 ∧ 14 ≤ 2 ^ 40 ∧ 49 ≤ wilder64 14 50 40 ∧ wilder64 14 50 40 ≤ 50 := by decide +kernel

/-- **C91.** The float64 DX is in `[0, 100]` for non-negative direction indices. -/
theorem C91_dx (p m : ℚ) (hp : 0 ≤ p) (hm : 0 ≤ m) : 0 ≤ dx64 p m ∧ dx64 p m ≤ 100 := by
  unfold dx64
  split
  · rename_i h
    have ha : |f64 (p - m)| ≤ f64 (p + m) := by
      rw [abs_le]
      constructor
      · rw [← f64_neg]; exact f64_mono (by linarith)
      · exact f64_mono (by linarith)
    have q0 : 0 ≤ |f64 (p - m)| / f64 (p + m) := div_nonneg (abs_nonneg _) h.le
    have q1 : |f64 (p - m)| / f64 (p + m) ≤ 1 := by rw [div_le_iff₀ h, one_mul]; exact ha
    have r1 : f64 (|f64 (p - m)| / f64 (p + m)) ≤ 1 := by
      have := f64_le_of (k := 1) (by norm_num) (by simpa using q1)
      simpa using this
    have r0 := f64_nonneg q0
    constructor
    · exact f64_nonneg (by linarith)
    · have := f64_le_of (x := 100 * f64 (|f64 (p - m)| / f64 (p + m))) (k := 100) (by norm_num) (by push_cast; linarith)
      simpa using this
  · norm_num

example : dx64 3 1 = 50 := by decide +kernel

theorem sum64_le (l : List ℚ) (h : ∀ x ∈ l, 0 ≤ x ∧ x ≤ 100) (hl : l.length ≤ 2 ^ 40) : 0 ≤ sum64 l ∧ sum64 l ≤ 100 * (l.length : ℚ) := by
  have key : ∀ (l : List ℚ) (s : ℚ) (k : Nat), (∀ x ∈ l, 0 ≤ x ∧ x ≤ 100) → k + l.length ≤ 2 ^ 40 → 0 ≤ s → s ≤ 100 * (k : ℚ) →
      0 ≤ l.foldl (fun s v => f64 (s + v)) s ∧ l.foldl (fun s v => f64 (s + v)) s ≤ 100 * ((k + l.length : Nat) : ℚ) := by
    intro l
    induction l with
    | nil => intro s k _ _ h0 h1; simpa using ⟨h0, h1⟩
    | cons a l ih =>
      intro s k hl hk h0 h1
      obtain ⟨a0, a1⟩ := hl a (by simp)
      rw [List.length_cons] at hk ⊢
      have := ih (f64 (s + a)) (k + 1) (fun x hx => hl x (by simp [hx])) (by omega) (f64_nonneg (by linarith)) (by
        have := f64_le_of (x := s + a) (k := 100 * ((k : Int) + 1)) (by rw [abs_of_nonneg (by omega)]; omega) (by push_cast; linarith)
        push_cast at this ⊢
        exact this)
      rw [List.foldl_cons, show k + (l.length + 1) = k + 1 + l.length by ring]
      exact this
  have := key l 0 0 h (by omega) le_rfl (by norm_num)
  simpa [sum64] using this

/-- ADX from DX. -/
theorem adxOfDx64_range (w : Nat) (hw : 1 ≤ w) (hw2 : w ≤ 2 ^ 40) (dx : List ℚ) (hlen : w ≤ dx.length) (h : ∀ x ∈ dx, 0 ≤ x ∧ x ≤ 100) :
    ∀ a ∈ adxOfDx64 w dx, 0 ≤ a ∧ a ≤ 100 := by
  have hs := sum64_le (dx.take w) (fun x hx => h x (List.mem_of_mem_take hx)) (by rw [List.length_take]; omega)
  rw [List.length_take, Nat.min_eq_left hlen] at hs
  have hwq : (0 : ℚ) < w := by exact_mod_cast hw
  have h0 : 0 ≤ f64 (sum64 (dx.take w) / w) ∧ f64 (sum64 (dx.take w) / w) ≤ 100 := by
    constructor
    · exact f64_nonneg (div_nonneg hs.1 hwq.le)
    · have := f64_le_of (x := sum64 (dx.take w) / w) (k := 100) (by norm_num) (by rw [div_le_iff₀ hwq]; push_cast; exact hs.2)
      simpa using this
  have key : ∀ (l : List ℚ) (a0 : ℚ), (0 ≤ a0 ∧ a0 ≤ 100) → (∀ x ∈ l, 0 ≤ x ∧ x ≤ 100) →
      ∀ a ∈ l.scanl (wilder64 w) a0, 0 ≤ a ∧ a ≤ 100 := by
    intro l
    induction l with
    | nil => intro a0 ha _ a h; simp at h; rw [h]; exact ha
    | cons x l ih =>
      intro a0 ha hl a hmem
      rw [List.scanl_cons] at hmem
      rcases List.mem_cons.mp hmem with rfl | hmem
      · exact ha
      · exact ih _ (C91_wilder w hw hw2 a0 x ha (hl x (by simp))) (fun y hy => hl y (by simp [hy])) a hmem
  exact key _ _ h0 (fun x hx => h x (List.mem_of_mem_drop hx))

theorem scanl_inv {α β : Type} (f : β → α → β) (P : β → Prop) (Q : α → Prop) (hf : ∀ s x, P s → Q x → P (f s x)) (l : List α) (s : β)
    (hs : P s) (hl : ∀ x ∈ l, Q x) : ∀ a ∈ l.scanl f s, P a := by
  induction l generalizing s with
  | nil => intro a h; simp at h; rw [h]; exact hs
  | cons x l ih =>
    intro a h
    rw [List.scanl_cons] at h
    rcases List.mem_cons.mp h with rfl | h
    · exact hs
    · exact ih _ (hf s x hs (hl x (by simp))) (fun y hy => hl y (by simp [hy])) a h

theorem sum64_nonneg (l : List ℚ) (h : ∀ x ∈ l, 0 ≤ x) : 0 ≤ sum64 l := by
  have key : ∀ (l : List ℚ) (s : ℚ), 0 ≤ s → (∀ x ∈ l, 0 ≤ x) → 0 ≤ l.foldl (fun s v => f64 (s + v)) s := by
    intro l
    induction l with
    | nil => intro s hs _; exact hs
    | cons a l ih =>
      intro s hs hl
      rw [List.foldl_cons]
      exact ih _ (f64_nonneg (add_nonneg hs (hl a (by simp)))) (fun x hx => hl x (by simp [hx]))
  exact key l 0 le_rfl h

theorem wilder64_nonneg (w : Nat) (hw : 1 ≤ w) (a x : ℚ) (ha : 0 ≤ a) (hx : 0 ≤ x) : 0 ≤ wilder64 w a x := by
  have hwq : (1 : ℚ) ≤ w := by exact_mod_cast hw
  unfold wilder64
  exact f64_nonneg (div_nonneg (f64_nonneg (add_nonneg (f64_nonneg (mul_nonneg (by linarith) ha)) hx)) (by linarith))

/-- **C91.** Every float64 RSI value of every price series is in `[0, 100]`. -/
theorem C91_rsi_series (close : List ℚ) (w : Nat) (hw : 1 ≤ w) : ∀ o ∈ rsi64 close w, ∀ r, o = some r → 0 ≤ r ∧ r ≤ 100 := by
  intro o ho r hr
  unfold rsi64 at ho
  rw [List.mem_map] at ho
  obtain ⟨s, hs, rfl⟩ := ho
  have hwq : (0 : ℚ) ≤ w := by positivity
  have := scanl_inv (fun (s : ℚ × ℚ) (x : ℚ) => (wilder64 w s.1 (if 0 < x then x else 0), wilder64 w s.2 (if x < 0 then -x else 0)))
    (fun s => 0 ≤ s.1 ∧ 0 ≤ s.2) (fun _ => True) (fun s x hs _ => ⟨wilder64_nonneg w hw _ _ hs.1 (by split <;> linarith),
      wilder64_nonneg w hw _ _ hs.2 (by split <;> linarith)⟩) ((diffs64 close).drop w)
    (f64 (sum64 ((((diffs64 close).take w).filter (fun x => decide (0 < x)))) / w),
     f64 (sum64 ((((diffs64 close).take w).filter (fun x => decide (x ≤ 0))).map (fun x => -x)) / w))
    ⟨f64_nonneg (div_nonneg (sum64_nonneg _ (by
        intro x hx; rw [List.mem_filter] at hx; exact (of_decide_eq_true hx.2).le)) hwq),
     f64_nonneg (div_nonneg (sum64_nonneg _ (by
        intro x hx
        rw [List.mem_map] at hx
        obtain ⟨y, hy, rfl⟩ := hx
        rw [List.mem_filter] at hy
        have := of_decide_eq_true hy.2
        linarith)) hwq)⟩ (fun _ _ => trivial) s hs
  exact C91_rsi s.1 s.2 this.1 r hr

example : (rsi64 [1, 2, 1, 2] 2).length = 2 := by decide +kernel

theorem mem_zipWith_exists {α β γ : Type} (f : α → β → γ) (as : List α) (bs : List β) (c : γ) (h : c ∈ List.zipWith f as bs) :
    ∃ a ∈ as, ∃ b ∈ bs, c = f a b := by
  induction as generalizing bs with
  | nil => simp at h
  | cons a as ih =>
    cases bs with
    | nil => simp at h
    | cons b bs =>
      rw [List.zipWith_cons_cons] at h
      rcases List.mem_cons.mp h with rfl | h
      · exact ⟨a, by simp, b, by simp, rfl⟩
      · obtain ⟨a', ha, b', hb, e⟩ := ih bs h
        exact ⟨a', by simp [ha], b', by simp [hb], e⟩

theorem sum64_idem (l : List ℚ) : f64 (sum64 l) = sum64 l := by
  rcases List.eq_nil_or_concat l with rfl | ⟨l, a, rfl⟩
  · exact f64_zero
  · unfold sum64
    rw [List.concat_eq_append, List.foldl_append]
    exact f64_idem _

theorem diSums64_nonneg (w : Nat) (hw : 1 ≤ w) (xs : List ℚ) (h : ∀ x ∈ xs, 0 ≤ x) : ∀ a ∈ diSums64 w xs, 0 ≤ a := by
  have hwq : (1 : ℚ) ≤ w := by exact_mod_cast hw
  intro a ha
  refine (scanl_inv (fun s x => f64 (f64 (s - f64 (s / w)) + x)) (fun s => 0 ≤ s ∧ f64 s = s) (fun x => 0 ≤ x) ?_ (xs.drop w)
    (sum64 (xs.take w)) ⟨sum64_nonneg _ (fun x hx => h x (List.mem_of_mem_take hx)), sum64_idem _⟩
    (fun x hx => h x (List.mem_of_mem_drop hx)) a ha).1
  intro s x hs hx
  have h1 : f64 (s / w) ≤ s := by
    have : s / w ≤ s := div_le_self hs.1 hwq
    have := f64_mono this
    rwa [hs.2] at this
  exact ⟨f64_nonneg (add_nonneg (f64_nonneg (by linarith)) hx), f64_idem _⟩

theorem di64_nonneg (tr dm : ℚ) (h : 0 ≤ dm) : 0 ≤ di64 tr dm := by
  unfold di64
  split
  · rename_i ht
    exact f64_nonneg (mul_nonneg (by norm_num) (f64_nonneg (div_nonneg h ht.le)))
  · exact le_rfl

theorem dm64_nonneg (x y : ℚ) : 0 ≤ dm64 x y := by
  unfold dm64
  split
  · rename_i h; exact h.2.le
  · exact le_rfl

theorem diSums64_length (w : Nat) (xs : List ℚ) : (diSums64 w xs).length = xs.length - w + 1 := by
  unfold diSums64
  rw [List.length_scanl, List.length_drop]

/-- **C91.** Every float64 ADX value of every bar series is in `[0, 100]`. -/
theorem C91_adx (high low close : List ℚ) (w n : Nat) (hw : 1 ≤ w) (hw2 : w ≤ 2 ^ 40) (hh : high.length = n) (hl : low.length = n)
    (hc : close.length = n) (hn : 2 * w ≤ n) : ∀ a ∈ adx64 high low close w, 0 ≤ a ∧ a ≤ 100 := by
  apply adxOfDx64_range w hw hw2
  · unfold adxDx64
    simp only [List.length_zipWith, diSums64_length, List.length_zip, List.length_tail, hh, hl, hc]
    omega
  · intro x hx
    unfold adxDx64 at hx
    obtain ⟨p, hp, m, hm, rfl⟩ := mem_zipWith_exists _ _ _ _ hx
    obtain ⟨t, _, d, hd, rfl⟩ := mem_zipWith_exists _ _ _ _ hp
    obtain ⟨t', _, d', hd', rfl⟩ := mem_zipWith_exists _ _ _ _ hm
    apply C91_dx
    · apply di64_nonneg
      refine diSums64_nonneg w hw _ (fun y hy => ?_) d hd
      obtain ⟨u, _, v, _, rfl⟩ := mem_zipWith_exists _ _ _ _ hy
      exact dm64_nonneg u v
    · apply di64_nonneg
      refine diSums64_nonneg w hw _ (fun y hy => ?_) d' hd'
      obtain ⟨u, _, v, _, rfl⟩ := mem_zipWith_exists _ _ _ _ hy
      exact dm64_nonneg u v

example : 2 * 2 ≤ ([3, 4, 5, 7, 6] : List ℚ).length ∧ adx64 [3, 4, 5, 7, 6] [1, 2, 3, 4, 4] [2, 3, 4, 6, 5] 2 ≠ [0, 0, 0, 0, 0] := by
  decide +kernel

/-- **C91, violation.** %K above 100: the close is the highest price 1.11, the lowest price is 1. -/
theorem C91_stoch_above_100 : ∃ r, stochVal64 (f64 (111 / 100)) 1 (f64 (111 / 100)) = some r ∧ 100 < r := by
  refine ⟨f64 (f64 (100 * f64 (f64 (111 / 100) - 1)) / f64 (f64 (111 / 100) - 1)), by decide +kernel, by decide +kernel⟩

/-- How far above: %K is at most 100 after `1 + u` and one more rounding. -/
theorem C91_stoch_bound (c lo hi : ℚ) (h1 : lo ≤ c) (h2 : c ≤ hi) (r : ℚ) (h : stochVal64 c lo hi = some r) :
    0 ≤ r ∧ r ≤ 100 * (1 + 1 / 2 ^ 53) ^ 2 := by
  unfold stochVal64 at h
  split at h
  · rename_i hlt
    simp only [Option.some.injEq] at h
    have d0 : 0 ≤ f64 (c - lo) := f64_nonneg (by linarith)
    have dle : f64 (c - lo) ≤ f64 (hi - lo) := f64_mono (by linarith)
    have hp : 0 < f64 (hi - lo) := by
      have := (f64_factor (show 0 ≤ hi - lo by linarith)).1
      have h2 : 0 < (hi - lo) * (1 - 1 / 2 ^ 53) := mul_pos (by linarith) (by norm_num)
      linarith
    generalize f64 (c - lo) = a at *
    generalize f64 (hi - lo) = b at *
    have f1 := f64_factor (show 0 ≤ 100 * a by linarith)
    have n0 : 0 ≤ f64 (100 * a) := f64_nonneg (by linarith)
    have q : f64 (100 * a) / b ≤ 100 * (1 + 1 / 2 ^ 53) := by
      rw [div_le_iff₀ hp]
      calc f64 (100 * a) ≤ 100 * a * (1 + 1 / 2 ^ 53) := f1.2
        _ ≤ 100 * b * (1 + 1 / 2 ^ 53) := by
          apply mul_le_mul_of_nonneg_right _ (by norm_num)
          linarith
        _ = _ := by ring
    have q0 : 0 ≤ f64 (100 * a) / b := div_nonneg n0 hp.le
    have f2 := f64_factor q0
    rw [← h]
    refine ⟨f64_nonneg q0, f2.2.trans ?_⟩
    calc f64 (100 * a) / b * (1 + 1 / 2 ^ 53) ≤ 100 * (1 + 1 / 2 ^ 53) * (1 + 1 / 2 ^ 53) :=
          mul_le_mul_of_nonneg_right q (by norm_num)
      _ = _ := by ring
  · cases h

example : (1 : ℚ) ≤ 3 ∧ (3 : ℚ) ≤ 5 ∧ stochVal64 3 1 5 = some 50 := by decide +kernel

/-- **C91, violation.** A constant series has a positive variance in `comp_zscore`: three times 0.1.  So the z-score is not missing,
as it is in exact arithmetic, but minus one before rounding (the deviation divided by the root of its square). -/
theorem C91_zscore_constant : 0 < zVar64 (List.replicate 3 (f64 (1 / 10))) 0 ∧
    f64 (1 / 10) < f64 (sum64 (List.replicate 3 (f64 (1 / 10))) / 3) := by
  refine ⟨by decide +kernel, by decide +kernel⟩

/-! ### Examples -/

/-- Non-vacuity of `C90_drift_bound`: volumes 1, 2 entering and 2, 1 leaving. -/
example : (∀ x ∈ [((1 : ℚ), (2 : ℚ)), (2, 1)], |x.1 - x.2| ≤ 1) ∧
    ∀ n ≤ 2, |(3 : ℚ) + (([((1 : ℚ), (2 : ℚ)), (2, 1)].take n).map (fun x => x.1 - x.2)).sum| ≤ 3 := by
  refine ⟨by decide +kernel, by decide +kernel⟩

/-- Non-vacuity of `C91_rsi_series` and `C91_adx`. -/
example : rsi64 [1, 2, 1, 2] 2 = [some 50, some 75] ∧ adx64 [2, 3, 4, 5] [1, 2, 3, 4] [2, 3, 4, 5] 2 = [100] := by
  refine ⟨by decide +kernel, by decide +kernel⟩

/-- Non-vacuity of the ranges. -/
example : rsiVal64 1 3 = some 25 ∧ dx64 3 1 = 50 ∧ adxOfDx64 2 [50, 100, 0] = [75, 75 / 2] := by
  refine ⟨by decide +kernel, by decide +kernel, by decide +kernel⟩

end FinML
