/-
C95: directional bar features under rounding.
-/
import Verif.Model.Float64Directional
import Verif.Props.Ohlcv64

set_option linter.unusedSectionVars false

namespace FinML

/-- Signed volumes of the trades of a bar: buys positive, sells negative, others left out. -/
def signedVols (ts : List (Int × ℚ × ℚ)) : List ℚ :=
  ts.filterMap (fun t => if t.1 = 1 then some t.2.2 else if t.1 = -1 then some (-t.2.2) else none)

/-- Signed dollar values, each product rounded. -/
def signedDols (ts : List (Int × ℚ × ℚ)) : List ℚ :=
  ts.filterMap (fun t => if t.1 = 1 then some (f64 (t.2.1 * t.2.2))
    else if t.1 = -1 then some (-f64 (t.2.1 * t.2.2)) else none)

/-- The float64 balance after the first `n` of the given amounts. -/
def balance64 (l : List ℚ) (n : Nat) : ℚ := sum64 (l.take n)

/-- `m` is the largest of the float64 balances after each amount, but at least `-1e9`, stored in float32. -/
def IsStoredMax (l : List ℚ) (m : ℚ) : Prop :=
  -1000000000 ≤ m ∧ (∀ n, 1 ≤ n → n ≤ l.length → f32 (balance64 l n) ≤ m) ∧
  (m = -1000000000 ∨ ∃ n, 1 ≤ n ∧ n ≤ l.length ∧ m = f32 (balance64 l n))

/-- `m` is the smallest of the float64 balances after each amount, but at most `1e9`, stored in float32. -/
def IsStoredMin (l : List ℚ) (m : ℚ) : Prop :=
  m ≤ 1000000000 ∧ (∀ n, 1 ≤ n → n ≤ l.length → m ≤ f32 (balance64 l n)) ∧
  (m = 1000000000 ∨ ∃ n, 1 ≤ n ∧ n ≤ l.length ∧ m = f32 (balance64 l n))

theorem f32_mono {x y : ℚ} (h : x ≤ y) : f32 x ≤ f32 y := rndBits_mono 24 (by norm_num) h
theorem f32_idem (x : ℚ) : f32 (f32 x) = f32 x := rndBits_idem 24 (by norm_num) x
theorem f32_neg (x : ℚ) : f32 (-x) = -f32 x := rndBits_neg 24 x

theorem f32_max (x y : ℚ) : f32 (max x y) = max (f32 x) (f32 y) :=
  (show Monotone f32 from fun _ _ h => f32_mono h).map_max
theorem f32_min (x y : ℚ) : f32 (min x y) = min (f32 x) (f32 y) :=
  (show Monotone f32 from fun _ _ h => f32_mono h).map_min

theorem abs_sum_le {K : Type} [AddCommGroup K] [LinearOrder K] [IsOrderedAddMonoid K] (l : List K) :
    |l.sum| ≤ (l.map (fun x => |x|)).sum := by
  induction l with
  | nil => simp
  | cons a l ih => simp only [List.sum_cons, List.map_cons]; exact (abs_add_le _ _).trans (by gcongr)

theorem sum64_snoc (l : List ℚ) (x : ℚ) : sum64 (l ++ [x]) = f64 (sum64 l + x) := by
  simp [sum64]

theorem storedMax_snoc (l : List ℚ) (x m : ℚ) (h : IsStoredMax l m) (hm : f32 m = m) :
    IsStoredMax (l ++ [x]) (f32 (max m (sum64 (l ++ [x])))) := by
  obtain ⟨h1, h2, h3⟩ := h
  rw [f32_max, hm]
  have hb : ∀ n, n ≤ l.length → balance64 (l ++ [x]) n = balance64 l n := by
    intro n hn; unfold balance64; rw [List.take_append_of_le_length hn]
  have hlast : balance64 (l ++ [x]) (l.length + 1) = sum64 (l ++ [x]) := by
    unfold balance64; rw [List.take_of_length_le (by simp)]
  refine ⟨h1.trans (le_max_left _ _), fun n hn hnl => ?_, ?_⟩
  · rcases Nat.lt_or_ge l.length n with h | h
    · have : n = l.length + 1 := by simp at hnl; omega
      rw [this, hlast]; exact le_max_right _ _
    · rw [hb n h]; exact (h2 n hn h).trans (le_max_left _ _)
  · rcases max_choice m (f32 (sum64 (l ++ [x]))) with e | e <;> rw [e]
    · rcases h3 with h3 | ⟨n, a, b, c⟩
      · exact Or.inl h3
      · exact Or.inr ⟨n, a, by simp; omega, by rw [hb n b]; exact c⟩
    · exact Or.inr ⟨l.length + 1, by omega, by simp, by rw [hlast]⟩

theorem storedMin_snoc (l : List ℚ) (x m : ℚ) (h : IsStoredMin l m) (hm : f32 m = m) :
    IsStoredMin (l ++ [x]) (f32 (min m (sum64 (l ++ [x])))) := by
  obtain ⟨h1, h2, h3⟩ := h
  rw [f32_min, hm]
  have hb : ∀ n, n ≤ l.length → balance64 (l ++ [x]) n = balance64 l n := by
    intro n hn; unfold balance64; rw [List.take_append_of_le_length hn]
  have hlast : balance64 (l ++ [x]) (l.length + 1) = sum64 (l ++ [x]) := by
    unfold balance64; rw [List.take_of_length_le (by simp)]
  refine ⟨(min_le_left _ _).trans h1, fun n hn hnl => ?_, ?_⟩
  · rcases Nat.lt_or_ge l.length n with h | h
    · have : n = l.length + 1 := by simp at hnl; omega
      rw [this, hlast]; exact min_le_right _ _
    · rw [hb n h]; exact (min_le_left _ _).trans (h2 n hn h)
  · rcases min_choice m (f32 (sum64 (l ++ [x]))) with e | e <;> rw [e]
    · rcases h3 with h3 | ⟨n, a, b, c⟩
      · exact Or.inl h3
      · exact Or.inr ⟨n, a, by simp; omega, by rw [hb n b]; exact c⟩
    · exact Or.inr ⟨l.length + 1, by omega, by simp, by rw [hlast]⟩

/-- State of the loop after the trades `ts`. -/
structure FlowInv (ts : List (Int × ℚ × ℚ)) (s : Flow64) : Prop where
  volBuy : s.volBuy = sum64 ((ts.filter (fun t => decide (t.1 = 1))).map (fun t => t.2.2))
  volSell : s.volSell = sum64 ((ts.filter (fun t => decide (t.1 = -1))).map (fun t => t.2.2))
  dolBuy : s.dolBuy = sum64 ((ts.filter (fun t => decide (t.1 = 1))).map (fun t => f64 (t.2.1 * t.2.2)))
  dolSell : s.dolSell = sum64 ((ts.filter (fun t => decide (t.1 = -1))).map (fun t => f64 (t.2.1 * t.2.2)))
  cumVol : s.cumVol = sum64 (signedVols ts)
  cumDol : s.cumDol = sum64 (signedDols ts)
  vmax : IsStoredMax (signedVols ts) s.cumVolMax ∧ f32 s.cumVolMax = s.cumVolMax
  vmin : IsStoredMin (signedVols ts) s.cumVolMin ∧ f32 s.cumVolMin = s.cumVolMin
  dmax : IsStoredMax (signedDols ts) s.cumDolMax ∧ f32 s.cumDolMax = s.cumDolMax
  dmin : IsStoredMin (signedDols ts) s.cumDolMin ∧ f32 s.cumDolMin = s.cumDolMin

theorem flowInv_step (ts : List (Int × ℚ × ℚ)) (s : Flow64) (t : Int × ℚ × ℚ) (h : FlowInv ts s) :
    FlowInv (ts ++ [t]) (flowStep64 s t) := by
  obtain ⟨h1, h2, h3, h4, h5, h6, h7, h8, h9, h10⟩ := h
  unfold flowStep64
  by_cases hb : t.1 = 1
  · have e1 : signedVols (ts ++ [t]) = signedVols ts ++ [t.2.2] := by simp [signedVols, hb]
    have e2 : signedDols (ts ++ [t]) = signedDols ts ++ [f64 (t.2.1 * t.2.2)] := by simp [signedDols, hb]
    simp only [if_pos hb]
    have c1 : f64 (s.cumVol + t.2.2) = sum64 (signedVols ts ++ [t.2.2]) := by rw [sum64_snoc, h5]
    have c2 : f64 (s.cumDol + f64 (t.2.1 * t.2.2)) = sum64 (signedDols ts ++ [f64 (t.2.1 * t.2.2)]) := by
      rw [sum64_snoc, h6]
    constructor
    · simp [flowExtremes64, hb, sum64_snoc, h1]
    · simp [flowExtremes64, hb, h2]
    · simp [flowExtremes64, hb, sum64_snoc, h3]
    · simp [flowExtremes64, hb, h4]
    · rw [e1]; exact c1
    · rw [e2]; exact c2
    · rw [e1]; simp only [flowExtremes64, c1]
      exact ⟨storedMax_snoc _ _ _ h7.1 h7.2, f32_idem _⟩
    · rw [e1]; simp only [flowExtremes64, c1]
      exact ⟨storedMin_snoc _ _ _ h8.1 h8.2, f32_idem _⟩
    · rw [e2]; simp only [flowExtremes64, c2]
      exact ⟨storedMax_snoc _ _ _ h9.1 h9.2, f32_idem _⟩
    · rw [e2]; simp only [flowExtremes64, c2]
      exact ⟨storedMin_snoc _ _ _ h10.1 h10.2, f32_idem _⟩
  · by_cases hs : t.1 = -1
    · have e1 : signedVols (ts ++ [t]) = signedVols ts ++ [-t.2.2] := by simp [signedVols, hs]
      have e2 : signedDols (ts ++ [t]) = signedDols ts ++ [-f64 (t.2.1 * t.2.2)] := by simp [signedDols, hs]
      simp only [if_neg hb, if_pos hs]
      have c1 : f64 (s.cumVol - t.2.2) = sum64 (signedVols ts ++ [-t.2.2]) := by
        rw [sum64_snoc, h5, sub_eq_add_neg]
      have c2 : f64 (s.cumDol - f64 (t.2.1 * t.2.2)) = sum64 (signedDols ts ++ [-f64 (t.2.1 * t.2.2)]) := by
        rw [sum64_snoc, h6, sub_eq_add_neg]
      constructor
      · simp [flowExtremes64, hs, h1]
      · simp [flowExtremes64, hs, sum64_snoc, h2]
      · simp [flowExtremes64, hs, h3]
      · simp [flowExtremes64, hs, sum64_snoc, h4]
      · rw [e1]; exact c1
      · rw [e2]; exact c2
      · rw [e1]; simp only [flowExtremes64, c1]
        exact ⟨storedMax_snoc _ _ _ h7.1 h7.2, f32_idem _⟩
      · rw [e1]; simp only [flowExtremes64, c1]
        exact ⟨storedMin_snoc _ _ _ h8.1 h8.2, f32_idem _⟩
      · rw [e2]; simp only [flowExtremes64, c2]
        exact ⟨storedMax_snoc _ _ _ h9.1 h9.2, f32_idem _⟩
      · rw [e2]; simp only [flowExtremes64, c2]
        exact ⟨storedMin_snoc _ _ _ h10.1 h10.2, f32_idem _⟩
    · have e1 : signedVols (ts ++ [t]) = signedVols ts := by simp [signedVols, hb, hs]
      have e2 : signedDols (ts ++ [t]) = signedDols ts := by simp [signedDols, hb, hs]
      simp only [if_neg hb, if_neg hs]
      constructor
      · simpa [hb] using h1
      · simpa [hs] using h2
      · simpa [hb] using h3
      · simpa [hs] using h4
      all_goals first | rw [e1]; assumption | rw [e2]; assumption

theorem flowInv (ts : List (Int × ℚ × ℚ)) : FlowInv ts (ts.foldl flowStep64 flowInit64) := by
  induction ts using List.reverseRecOn with
  | nil =>
    have e : f32 1000000000 = 1000000000 := by decide +kernel
    have e' : f32 (-1000000000) = -1000000000 := by rw [f32_neg, e]
    constructor <;> simp [flowInit64, sum64, signedVols, signedDols, IsStoredMax, IsStoredMin, e, e'] <;> omega
  | append_singleton ts t ih =>
    rw [List.foldl_append]
    exact flowInv_step ts _ t ih

/-- **C95 (values).** For every bar, the stored buy and sell volumes and dollar values are the float64 sums, in trade order, of the
buys and sells, rounded once to float32; the stored extremes are the largest and smallest float64 balance, rounded once. -/
theorem C95_values (ts : List (Int × ℚ × ℚ)) :
    (flowBar64 ts).volBuy = f32 (sum64 ((ts.filter (fun t => decide (t.1 = 1))).map (fun t => t.2.2))) ∧
    (flowBar64 ts).volSell = f32 (sum64 ((ts.filter (fun t => decide (t.1 = -1))).map (fun t => t.2.2))) ∧
    (flowBar64 ts).dolBuy = f32 (sum64 ((ts.filter (fun t => decide (t.1 = 1))).map (fun t => f64 (t.2.1 * t.2.2)))) ∧
    (flowBar64 ts).dolSell = f32 (sum64 ((ts.filter (fun t => decide (t.1 = -1))).map (fun t => f64 (t.2.1 * t.2.2)))) ∧
    IsStoredMax (signedVols ts) (flowBar64 ts).cumVolMax ∧ IsStoredMin (signedVols ts) (flowBar64 ts).cumVolMin ∧
    IsStoredMax (signedDols ts) (flowBar64 ts).cumDolMax ∧ IsStoredMin (signedDols ts) (flowBar64 ts).cumDolMin := by
  obtain ⟨h1, h2, h3, h4, -, -, h7, h8, h9, h10⟩ := flowInv ts
  exact ⟨congrArg f32 h1, congrArg f32 h2, congrArg f32 h3, congrArg f32 h4, h7.1, h8.1, h9.1, h10.1⟩

/-- **C95 (order).** With a signed trade in the bar, the stored minimum is at most the stored maximum, and the float32 value of
each balance lies between them. -/
theorem C95_between (ts : List (Int × ℚ × ℚ)) (n : Nat) (h1 : 1 ≤ n) (hn : n ≤ (signedVols ts).length) :
    (flowBar64 ts).cumVolMin ≤ f32 (balance64 (signedVols ts) n) ∧
    f32 (balance64 (signedVols ts) n) ≤ (flowBar64 ts).cumVolMax := by
  obtain ⟨-, -, -, -, a, b, -, -⟩ := C95_values ts
  exact ⟨b.2.1 n h1 hn, a.2.1 n h1 hn⟩

example : (signedVols [(1, 10, 2), (-1, 11, 5)]).length = 2 ∧ (flowBar64 [(1, 10, 2), (-1, 11, 5)]).cumVolMin = -3 ∧
    (flowBar64 [(1, 10, 2), (-1, 11, 5)]).cumVolMax = 2 := by decide +kernel

/-- **C95 (error).** A float64 balance differs from the exact one by at most `(1 + 2^-53)^n - 1` times the traded volume. -/
theorem C95_balance_error (l : List ℚ) :
    |sum64 l - l.sum| ≤ ((1 + 1 / 2 ^ 53) ^ l.length - 1) * (l.map (fun x => |x|)).sum := by
  induction l using List.reverseRecOn with
  | nil => simp [sum64]
  | append_singleton l x ih =>
    have hr := f64_relErr (sum64 l + x)
    have hs : |l.sum| ≤ (l.map (fun x => |x|)).sum := abs_sum_le _
    rw [sum64_snoc, List.sum_append, List.sum_singleton, List.length_append, List.length_singleton, pow_succ,
      List.map_append, List.sum_append]
    simp only [List.map_cons, List.map_nil, List.sum_singleton]
    have hp : (1 : ℚ) ≤ (1 + 1 / 2 ^ 53) ^ l.length := one_le_pow₀ (by norm_num)
    generalize (1 + 1 / 2 ^ 53 : ℚ) ^ l.length = P at *
    generalize (l.map (fun x => |x|)).sum = A at *
    generalize hS : sum64 l = S at *
    generalize l.sum = E at *
    have hA : 0 ≤ A := (abs_nonneg _).trans hs
    have hSb : |S| ≤ P * A := by
      have : |S| ≤ |S - E| + |E| := by
        have := abs_add_le (S - E) E
        simpa using this
      linarith
    have t1 : |f64 (S + x) - (E + x)| ≤ |f64 (S + x) - (S + x)| + |S - E| := by
      have := abs_add_le (f64 (S + x) - (S + x)) (S - E)
      have e : f64 (S + x) - (S + x) + (S - E) = f64 (S + x) - (E + x) := by ring
      rwa [e] at this
    have t2 : |S + x| ≤ P * A + |x| := (abs_add_le _ _).trans (by linarith)
    have hx := abs_nonneg x
    have t3 : |S + x| / 2 ^ 53 ≤ (P * A + |x|) / 2 ^ 53 := by
      apply div_le_div_of_nonneg_right t2; norm_num
    have t4 : (P - 1) * (1 + 1 / 2 ^ 53) * |x| ≥ 0 := by
      apply mul_nonneg (mul_nonneg (by linarith) (by norm_num)) hx
    have t5 : (P * (1 + 1 / 2 ^ 53) - 1) * (A + |x|) =
        (P - 1) * A + P * A / 2 ^ 53 + (P - 1) * (1 + 1 / 2 ^ 53) * |x| + |x| / 2 ^ 53 := by ring
    rw [t5]
    have t6 : (P * A + |x|) / 2 ^ 53 = P * A / 2 ^ 53 + |x| / 2 ^ 53 := by ring
    linarith

/-- **C95 (exact volumes).** Amounts that are multiples of a power of two, with at most `2^53` units traded, have exact balances. -/
theorem C95_balance_exact (zs : List Int) (k : Int) (hs : (zs.map (fun z => |z|)).sum ≤ 2 ^ 53) :
    sum64 (zs.map (fun z : Int => (z : ℚ) * 2 ^ k)) = (zs.sum : ℚ) * 2 ^ k := by
  induction zs using List.reverseRecOn with
  | nil => simp [sum64]
  | append_singleton zs z ih =>
    simp only [List.map_append, List.sum_append, List.map_cons, List.map_nil, List.sum_singleton] at hs ⊢
    rw [sum64_snoc, ih (by linarith [abs_nonneg z])]
    have e : (zs.sum : ℚ) * 2 ^ k + (z : ℚ) * 2 ^ k = ((zs.sum + z : Int) : ℚ) * 2 ^ k := by push_cast; ring
    rw [e]
    refine rndBits_exact 53 (by norm_num) _ _ ?_
    have h1 : |zs.sum| ≤ (zs.map (fun z => |z|)).sum := abs_sum_le _
    have := abs_add_le zs.sum z
    norm_num at *
    linarith

example : (([3, -5] : List Int).map (fun z => |z|)).sum ≤ 2 ^ 53 ∧ sum64 [3 / 4, -5 / 4] = -(1 / 2) := by decide +kernel

/-- The same trades with buys and sells exchanged. -/
def flipSides (ts : List (Int × ℚ × ℚ)) : List (Int × ℚ × ℚ) := ts.map (fun t => (-t.1, t.2))

/-- The row with buys and sells exchanged. -/
def Flow64.flip (s : Flow64) : Flow64 :=
  ⟨s.volSell, s.volBuy, s.dolSell, s.dolBuy, -s.cumVol, -s.cumDol, -s.cumVolMax, -s.cumVolMin, -s.cumDolMax, -s.cumDolMin⟩

/-- **C95 (symmetry).** Exchanging buys and sells exchanges the buy and sell columns and negates and exchanges the extremes,
rounding included. -/
theorem C95_flip (ts : List (Int × ℚ × ℚ)) : flowBar64 (flipSides ts) = (flowBar64 ts).flip := by
  have n64 : ∀ a b : ℚ, f64 (-a - b) = -f64 (a + b) := fun a b => by rw [← f64_neg]; congr 1; ring
  have n64' : ∀ a b : ℚ, f64 (-a + b) = -f64 (a - b) := fun a b => by rw [← f64_neg]; congr 1; ring
  have mx : ∀ a b : ℚ, f32 (max (-a) (-b)) = -f32 (min a b) := fun a b => by rw [show max (-a) (-b) = -min a b by rcases le_total a b with h | h <;> simp [h], f32_neg]
  have mn : ∀ a b : ℚ, f32 (min (-a) (-b)) = -f32 (max a b) := fun a b => by rw [show min (-a) (-b) = -max a b by rcases le_total a b with h | h <;> simp [h], f32_neg]
  have step : ∀ s t, flowStep64 (Flow64.flip s) (-t.1, t.2) = (flowStep64 s t).flip := by
    intro s t
    unfold flowStep64 flowExtremes64 Flow64.flip
    by_cases hb : t.1 = 1
    · simp [hb, n64, mx, mn]
    · by_cases hs : t.1 = -1
      · simp [hs, n64', mx, mn]
      · have h1 : ¬ (-t.1 = 1) := by omega
        have h2 : ¬ (-t.1 = -1) := by omega
        simp only [if_neg h1, if_neg h2, if_neg hb, if_neg hs]
  have key : ∀ (ts : List (Int × ℚ × ℚ)) s, (flipSides ts).foldl flowStep64 (Flow64.flip s) =
      (ts.foldl flowStep64 s).flip := by
    intro ts
    induction ts with
    | nil => intro s; rfl
    | cons t ts ih => intro s; rw [List.foldl_cons, ← ih, ← step]; rfl
  have h0 : Flow64.flip flowInit64 = flowInit64 := by decide +kernel
  have := key ts flowInit64
  rw [h0] at this
  unfold flowBar64
  rw [this]
  rfl

/-! ### Violations -/

/-- **C95 (no return to zero).** A bar that buys 0.1 and 0.2 and sells 0.3 has equal stored buy and sell volumes, but its
smallest balance, which is the last one, is positive. -/
theorem C95_balanced_not_zero :
    let ts : List (Int × ℚ × ℚ) := [(1, 1, f64 (1 / 10)), (1, 1, f64 (2 / 10)), (-1, 1, f64 (3 / 10))]
    (flowBar64 ts).volBuy = (flowBar64 ts).volSell ∧ 0 < (flowBar64 ts).cumVolMin := by
  decide +kernel

/-- **C95 (stored maximum too small).** The stored largest balance can be below the last exact balance: `2^24 + 1` units
bought and 0.5 sold. -/
theorem C95_max_below_balance :
    let ts : List (Int × ℚ × ℚ) := [(1, 1, 16777216), (1, 1, 1), (-1, 1, 1 / 2)]
    (flowBar64 ts).cumVolMax = 16777216 ∧ (signedVols (ts.take 2)).sum = 16777217 ∧ (signedVols ts).sum > 16777216 := by
  decide +kernel

example : flowBar64 [(1, 2, 3), (-1, 2, 5), (0, 2, 7), (1, 3, 1)] = ⟨4, 5, 9, 10, -1, -1, -2, 3, -4, 6⟩ := by decide +kernel
example : IsStoredMax [3, -5, 1] 3 := by
  obtain ⟨-, -, -, -, h, -⟩ := C95_values [(1, 2, 3), (-1, 2, 5), (0, 2, 7), (1, 3, 1)]
  rwa [(by decide +kernel : (flowBar64 [(1, 2, 3), (-1, 2, 5), (0, 2, 7), (1, 3, 1)]).cumVolMax = 3),
    (by decide +kernel : signedVols [(1, 2, 3), (-1, 2, 5), (0, 2, 7), (1, 3, 1)] = [3, -5, 1])] at h

end FinML
