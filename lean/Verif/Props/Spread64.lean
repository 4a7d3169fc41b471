/-
C95: spreads of the directional features under rounding.
-/
import Verif.Props.Balance64
import Verif.Props.TripleBarrier64
import Verif.Props.Directional64
import Verif.Spec.Directional

set_option linter.unusedSectionVars false

namespace FinML

/-- A trade (side, price, volume) as a record. -/
def asSided (t : Int × ℚ × ℚ) : SidedTrade ℚ := ⟨t.1, t.2.1, t.2.2⟩

/-- The number of trades of side `1` or `-1`. -/
def signedCount (ts : List (Int × ℚ × ℚ)) : Nat := (ts.filter (fun t => decide (t.1 = 1 ∨ t.1 = -1))).length

theorem spreadStep64_switch (s : Spread64) (t : Int × ℚ × ℚ) (h : t.1 ≠ s.prevSide) : spreadStep64 s t =
    ⟨t.1, t.2.1, if |f64 (t.2.1 - s.prevPrice)| > s.maxSpread then |f64 (t.2.1 - s.prevPrice)| else s.maxSpread,
      f64 (s.cumSpread + |f64 (t.2.1 - s.prevPrice)|), if t.1 = 1 ∨ t.1 = -1 then s.ticks + 1 else s.ticks⟩ := if_pos h

theorem spreadStep64_same (s : Spread64) (t : Int × ℚ × ℚ) (h : ¬ t.1 ≠ s.prevSide) : spreadStep64 s t =
    ⟨t.1, t.2.1, s.maxSpread, s.cumSpread, if t.1 = 1 ∨ t.1 = -1 then s.ticks + 1 else s.ticks⟩ := if_neg h

theorem switchMoves_nonneg (l : List (SidedTrade ℚ)) (ps : Int) (pp : ℚ) : ∀ m ∈ switchMoves ps pp l, 0 ≤ m := by
  induction l generalizing ps pp with
  | nil => simp [switchMoves]
  | cons t l ih =>
    intro m hm
    rw [switchMoves] at hm
    split at hm
    · rcases List.mem_cons.mp hm with rfl | h
      · exact abs_nonneg _
      · exact ih _ _ m h
    · exact ih _ _ m hm

theorem spread_fold (ts : List (Int × ℚ × ℚ)) (s : Spread64) :
    let r := ts.foldl spreadStep64 s
    let m := (switchMoves s.prevSide s.prevPrice (ts.map asSided)).map f64
    r.maxSpread = m.foldl max s.maxSpread ∧ r.cumSpread = m.foldl (fun a x => f64 (a + x)) s.cumSpread ∧
    r.ticks = s.ticks + signedCount ts := by
  induction ts generalizing s with
  | nil => simp [switchMoves, signedCount]
  | cons t ts ih =>
    have hi := ih (spreadStep64 s t)
    have e1 : (spreadStep64 s t).prevSide = t.1 := by
      by_cases h : t.1 ≠ s.prevSide
      · rw [spreadStep64_switch s t h]
      · rw [spreadStep64_same s t h]
    have e2 : (spreadStep64 s t).prevPrice = t.2.1 := by
      by_cases h : t.1 ≠ s.prevSide
      · rw [spreadStep64_switch s t h]
      · rw [spreadStep64_same s t h]
    have e3 : (spreadStep64 s t).ticks = if t.1 = 1 ∨ t.1 = -1 then s.ticks + 1 else s.ticks := by
      by_cases h : t.1 ≠ s.prevSide
      · rw [spreadStep64_switch s t h]
      · rw [spreadStep64_same s t h]
    rw [e1, e2, e3] at hi
    obtain ⟨h1, h2, h3⟩ := hi
    intro r m
    have hr : r = ts.foldl spreadStep64 (spreadStep64 s t) := rfl
    have hm : m = (if t.1 ≠ s.prevSide then [f64 |t.2.1 - s.prevPrice|] else []) ++
        (switchMoves t.1 t.2.1 (ts.map asSided)).map f64 := by
      show (switchMoves _ _ (asSided t :: ts.map asSided)).map f64 = _
      rw [switchMoves]
      show (if t.1 ≠ s.prevSide then _ else _ : List ℚ).map f64 = _
      split <;> simp [asSided]
    refine ⟨?_, ?_, ?_⟩
    · rw [hr, h1, hm, List.foldl_append]
      congr 1
      by_cases h : t.1 ≠ s.prevSide
      · rw [spreadStep64_switch s t h, if_pos h]
        simp only [List.foldl_cons, List.foldl_nil]
        rw [f64_abs]
        split
        · rename_i h'; rw [max_eq_right (le_of_lt h')]
        · rename_i h'; rw [max_eq_left (not_lt.mp h')]
      · rw [spreadStep64_same s t h, if_neg h]; rfl
    · rw [hr, h2, hm, List.foldl_append]
      congr 1
      by_cases h : t.1 ≠ s.prevSide
      · rw [spreadStep64_switch s t h, if_pos h]
        simp only [List.foldl_cons, List.foldl_nil]
        rw [f64_abs]
      · rw [spreadStep64_same s t h, if_neg h]; rfl
    · rw [hr, h3]
      unfold signedCount
      rw [List.filter_cons]
      by_cases hs : t.1 = 1 ∨ t.1 = -1
      · simp only [hs, if_true, decide_true, List.length_cons]; push_cast; ring
      · simp only [hs, if_false, decide_false, Bool.false_eq_true]

theorem foldl_max_greatest (l : List ℚ) (a : ℚ) : l.foldl max a ∈ a :: l ∧ ∀ x ∈ a :: l, x ≤ l.foldl max a := by
  induction l generalizing a with
  | nil => simp
  | cons b l ih =>
    obtain ⟨h1, h2⟩ := ih (max a b)
    rw [List.foldl_cons]
    refine ⟨?_, ?_⟩
    · rcases List.mem_cons.mp h1 with h | h
      · rw [h]
        rcases max_choice a b with h' | h' <;> rw [h'] <;> simp
      · simp [h]
    · have hm := h2 _ (List.mem_cons_self)
      intro x hx
      rcases List.mem_cons.mp hx with rfl | hx
      · exact le_trans (le_max_left _ _) hm
      rcases List.mem_cons.mp hx with rfl | hx
      · exact le_trans (le_max_right _ _) hm
      · exact h2 x (List.mem_cons_of_mem _ hx)

theorem foldl_max_f64 (l : List ℚ) (a : ℚ) : (l.map f64).foldl max (f64 a) = f64 (l.foldl max a) := by
  induction l generalizing a with
  | nil => rfl
  | cons b l ih =>
    rw [List.map_cons, List.foldl_cons, List.foldl_cons, ← ih]
    congr 1
    exact ((show Monotone f64 from fun _ _ h => f64_mono h).map_max).symm

/-- The stored largest spread is the exact largest price move at a change of side (0 if there is none), rounded once to float64
and once to float32. -/
theorem C95_spread_max (side : Int) (price : ℚ) (ts : List (Int × ℚ × ℚ)) :
    let moves := switchMoves side price (ts.map asSided)
    ∃ m ∈ 0 :: moves, (∀ x ∈ 0 :: moves, x ≤ m) ∧ (spreadBar64 side price ts).1 = f32 (f64 m) := by
  intro moves
  obtain ⟨h1, h2⟩ := foldl_max_greatest moves 0
  refine ⟨_, h1, h2, ?_⟩
  show f32 _ = _
  rw [(spread_fold ts ⟨side, price, 0, 0, 0⟩).1]
  congr 1
  rw [← foldl_max_f64, f64_zero]

example : (spreadBar64 1 (1001 / 10) [(1, 1002 / 10, 1), (-1, 999 / 10, 2), (1, 1003 / 10, 1)]).1 = f32 (f64 (2 / 5)) := by decide +kernel

/-- The stored mean spread is the float64 sum of the rounded moves at changes of side, divided by the number of signed trades,
rounded to float32; with no signed trade it is not a number.  It is within `k + 2` float64 roundings and one float32 rounding of
the exact mean, `k` the number of changes. -/
theorem C95_spread_mean (side : Int) (price : ℚ) (ts : List (Int × ℚ × ℚ)) :
    let moves := switchMoves side price (ts.map asSided)
    let n := signedCount ts
    (n = 0 → (spreadBar64 side price ts).2 = none) ∧
    (0 < n → ∃ v, (spreadBar64 side price ts).2 = some v ∧ v = f32 (f64 (sum64 (moves.map f64) / n)) ∧
      moves.sum / n * (1 - 1 / 2 ^ 53) ^ (moves.length + 2) * (1 - 1 / 2 ^ 24) ≤ v ∧
      v ≤ moves.sum / n * (1 + 1 / 2 ^ 53) ^ (moves.length + 2) * (1 + 1 / 2 ^ 24)) := by
  intro moves n
  obtain ⟨_, h2, h3⟩ := spread_fold ts ⟨side, price, 0, 0, 0⟩
  have h2' : (ts.foldl spreadStep64 ⟨side, price, 0, 0, 0⟩).cumSpread = sum64 (moves.map f64) := h2
  have h3' : (ts.foldl spreadStep64 ⟨side, price, 0, 0, 0⟩).ticks = n := by rw [h3]; simp [n]
  constructor
  · intro h0
    show (if _ then _ else _) = _
    rw [h3', h0]; rfl
  · intro hn
    have hv : (spreadBar64 side price ts).2 = some (f32 (f64 (sum64 (moves.map f64) / n))) := by
      show (if _ then _ else _) = _
      rw [h3', h2', if_neg (by omega)]
      norm_num
    have hm0 := switchMoves_nonneg (ts.map asSided) side price
    have hall : RoundsAll 1 moves (moves.map f64) := by
      have := (RoundsAll.refl moves).map (j := 1) id f64 hm0 (fun x y hx h => h.f64 hx)
      rwa [List.map_id] at this
    have hs := hall.sum64 hm0
    have hn' : (0 : ℚ) ≤ n := Nat.cast_nonneg n
    have hq := (hs.div hn').f64 (div_nonneg (List.sum_nonneg hm0) hn')
    have hx : 0 ≤ moves.sum / n := div_nonneg (List.sum_nonneg hm0) hn'
    have hf := f32_factor (hq.nonneg hx)
    have e : 1 + moves.length + 1 = moves.length + 2 := by omega
    rw [e] at hq
    refine ⟨_, hv, rfl, ?_, ?_⟩
    · exact le_trans (mul_le_mul_of_nonneg_right hq.1 (by norm_num)) hf.1
    · exact le_trans hf.2 (mul_le_mul_of_nonneg_right hq.2 (by norm_num))

example : 0 < signedCount [(1, 1002 / 10, 1), (-1, 999 / 10, 2), (1, 1003 / 10, 1)] ∧
    switchMoves 1 (1001 / 10 : ℚ) ([(1, 1002 / 10, 1), (-1, 999 / 10, 2), (1, 1003 / 10, 1)].map asSided) = [3 / 10, 2 / 5] := by
  decide +kernel

/-- The stored largest spread is 0 exactly when the exact one is: no price move at any change of side. -/
theorem C95_spread_zero (side : Int) (price : ℚ) (ts : List (Int × ℚ × ℚ)) :
    (spreadBar64 side price ts).1 = 0 ↔ ∀ x ∈ switchMoves side price (ts.map asSided), x = 0 := by
  have hm0 := switchMoves_nonneg (ts.map asSided) side price
  obtain ⟨m, hm, hmax, hv⟩ := C95_spread_max side price ts
  rw [hv]
  have hmn : 0 ≤ m := hmax 0 List.mem_cons_self
  constructor
  · intro h x hx
    have h1 := (f32_factor (f64_nonneg hmn)).1
    have h2 := (f64_factor hmn).1
    rw [h] at h1
    have : m ≤ 0 := by nlinarith [h1, h2]
    exact le_antisymm (le_trans (hmax x (List.mem_cons_of_mem _ hx)) this) (hm0 x hx)
  · intro h
    have : m = 0 := by
      rcases List.mem_cons.mp hm with h' | h'
      · exact h'
      · exact h m h'
    rw [this, f64_zero]
    exact f32_zero

example : (spreadBar64 1 100 [(-1, 100, 1), (1, 100, 2)]).1 = 0 ∧ (spreadBar64 1 100 [(-1, 100, 1), (1, 101, 2)]).1 ≠ 0 := by decide +kernel

/-- Every price is a float64 and within a factor of two of the one before. -/
def SmoothPrices (price : ℚ) : List (Int × ℚ × ℚ) → Prop
  | [] => True
  | t :: ts => f64 price = price ∧ f64 t.2.1 = t.2.1 ∧ t.2.1 ≤ 2 * price ∧ price ≤ 2 * t.2.1 ∧ SmoothPrices t.2.1 ts

theorem smooth_moves (ts : List (Int × ℚ × ℚ)) (side : Int) (price : ℚ) (h : SmoothPrices price ts) :
    (switchMoves side price (ts.map asSided)).map f64 = switchMoves side price (ts.map asSided) := by
  induction ts generalizing side price with
  | nil => rfl
  | cons t ts ih =>
    obtain ⟨h1, h2, h3, h4, h5⟩ := h
    rw [List.map_cons, switchMoves]
    have hi := ih t.1 t.2.1 h5
    split
    · rw [List.map_cons]
      show f64 |t.2.1 - price| :: List.map f64 (switchMoves t.1 t.2.1 _) = |t.2.1 - price| :: switchMoves t.1 t.2.1 _
      rw [hi, f64_abs, f64_sub_exact _ _ h2 h1 h4 h3]
    · exact hi

/-- When each float64 price is within a factor of two of the one before, the price moves are exact: the largest spread is rounded
only when it is stored in float32, and the mean only by the summation, the division and the store. -/
theorem C95_spread_exact_moves (side : Int) (price : ℚ) (ts : List (Int × ℚ × ℚ)) (h : SmoothPrices price ts) :
    let moves := switchMoves side price (ts.map asSided)
    (∃ m ∈ 0 :: moves, (∀ x ∈ 0 :: moves, x ≤ m) ∧ (spreadBar64 side price ts).1 = f32 m) ∧
    (0 < signedCount ts → (spreadBar64 side price ts).2 = some (f32 (f64 (sum64 moves / signedCount ts)))) := by
  intro moves
  have hs := smooth_moves ts side price h
  obtain ⟨m, hm, hmax, hv⟩ := C95_spread_max side price ts
  refine ⟨⟨m, hm, hmax, ?_⟩, ?_⟩
  · rw [hv]
    congr 1
    rcases List.mem_cons.mp hm with h' | h'
    · rw [h', f64_zero]
    · rw [← hs] at h'
      obtain ⟨x, _, rfl⟩ := List.mem_map.mp h'
      exact f64_idem x
  · intro hn
    obtain ⟨v, h1, h2, _⟩ := (C95_spread_mean side price ts).2 hn
    rw [h1, h2, hs]

example : SmoothPrices 100 [(1, 1001 / 8, 1), (-1, 999 / 8, 2), (1, 1003 / 8, 1)] := by
  unfold SmoothPrices SmoothPrices SmoothPrices SmoothPrices; decide +kernel

/-- Exchanging buys and sells leaves both spread columns unchanged. -/
theorem C95_spread_mirror (side : Int) (price : ℚ) (ts : List (Int × ℚ × ℚ)) :
    spreadBar64 (-side) price (ts.map (fun t => (-t.1, t.2))) = spreadBar64 side price ts := by
  have key : ∀ (ts : List (Int × ℚ × ℚ)) (s : Spread64),
      (ts.map (fun t => (-t.1, t.2))).foldl spreadStep64 { s with prevSide := -s.prevSide } =
      { ts.foldl spreadStep64 s with prevSide := -(ts.foldl spreadStep64 s).prevSide } := by
    intro ts
    induction ts with
    | nil => intro s; rfl
    | cons t ts ih =>
      intro s
      rw [List.map_cons, List.foldl_cons, List.foldl_cons, ← ih]
      congr 1
      have hc : (-t.1 = 1 ∨ -t.1 = -1) ↔ (t.1 = 1 ∨ t.1 = -1) := by omega
      by_cases h : t.1 ≠ s.prevSide
      · rw [spreadStep64_switch s t h, spreadStep64_switch _ _ (by simpa using h)]
        simp only [hc]
      · rw [spreadStep64_same s t h, spreadStep64_same _ _ (by simpa using h)]
        simp only [hc]
  unfold spreadBar64
  have := key ts ⟨side, price, 0, 0, 0⟩
  simp only at this
  rw [this]

example : spreadBar64 (-1) 100 [(1, 101, 1), (-1, 99, 2)] = spreadBar64 1 100 [(-1, 101, 1), (1, 99, 2)] ∧
    (spreadBar64 1 100 [(-1, 101, 1), (1, 99, 2)]).1 = 2 := by decide +kernel

end FinML
