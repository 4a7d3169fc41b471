/-
C92: price levels and level volumes in float arithmetic.
-/
import Verif.Model.Float64Footprint
import Verif.Props.Ohlcv64

set_option linter.unusedSectionVars false

namespace FinML

theorem rint_near_fp (x : ℚ) (k : Int) (h : |x - k| < 1 / 2) : rint x = k := by
  have hb := rint_bounds x
  rw [abs_lt] at h
  have h1 : (rint x : ℚ) < k + 1 := by linarith
  have h2 : (k : ℚ) < rint x + 1 := by linarith
  have h1' : rint x < k + 1 := by exact_mod_cast h1
  have h2' : k < rint x + 1 := by exact_mod_cast h2
  omega

/-- **C92.** On a price grid of any step `T` (say 0.01), with price and step both stored as the nearest float64, the level of the
price `k T` is exactly `k`, for all `k` up to `2^50`. -/
theorem C92_level_exact (T : ℚ) (hT : 0 < T) (k : Int) (hk : |k| ≤ 2 ^ 50) : level64 (f64 T) (f64 ((k : ℚ) * T)) = k := by
  unfold level64
  have ht := f64_factor hT.le
  have u0 : (0 : ℚ) < 1 - 1 / 2 ^ 53 := by norm_num
  have htp : 0 < f64 T := lt_of_lt_of_le (mul_pos hT u0) ht.1
  have hkq : |(k : ℚ)| ≤ 2 ^ 50 := by exact_mod_cast hk
  have hx := f64_relErr ((k : ℚ) * T)
  rw [abs_mul, abs_of_pos hT] at hx
  -- quotient
  have hq : |f64 ((k : ℚ) * T) / f64 T - k| ≤ |(k : ℚ)| * (2 * (1 / 2 ^ 53) / (1 - 1 / 2 ^ 53)) := by
    have e : f64 ((k : ℚ) * T) / f64 T - k = ((f64 ((k : ℚ) * T) - k * T) + k * (T - f64 T)) / f64 T := by
      field_simp; ring
    rw [e, abs_div, abs_of_pos htp, div_le_iff₀ htp]
    have e2 : |T - f64 T| ≤ T * (1 / 2 ^ 53) := by
      rw [abs_le]; constructor <;> linarith [ht.1, ht.2]
    have e3 : |(k : ℚ) * (T - f64 T)| ≤ |(k : ℚ)| * (T * (1 / 2 ^ 53)) := by
      rw [abs_mul]; exact mul_le_mul_of_nonneg_left e2 (abs_nonneg _)
    have e4 := abs_add_le (f64 ((k : ℚ) * T) - k * T) ((k : ℚ) * (T - f64 T))
    have e5 : |(k : ℚ)| * (2 * (1 / 2 ^ 53) / (1 - 1 / 2 ^ 53)) * (T * (1 - 1 / 2 ^ 53))
        ≤ |(k : ℚ)| * (2 * (1 / 2 ^ 53) / (1 - 1 / 2 ^ 53)) * f64 T := by
      apply mul_le_mul_of_nonneg_left ht.1
      positivity
    have e6 : |(k : ℚ)| * (2 * (1 / 2 ^ 53) / (1 - 1 / 2 ^ 53)) * (T * (1 - 1 / 2 ^ 53)) = |(k : ℚ)| * T * (2 * (1 / 2 ^ 53)) := by
      field_simp
    linarith
  apply rint_near_fp
  generalize f64 ((k : ℚ) * T) / f64 T = q at *
  have hr := f64_relErr q
  have hqa : |q| ≤ |(k : ℚ)| + |q - k| := by
    have := abs_add_le (k : ℚ) (q - k)
    simpa using this
  have ht := abs_sub_le (f64 q) q (k : ℚ)
  have hA := abs_nonneg (k : ℚ)
  generalize |(k : ℚ)| = A at *
  rcases hA.eq_or_lt with h0 | h0
  · have z : |q - k| ≤ 0 := by rw [← h0] at hq; simpa using hq
    have z2 : |q| / 2 ^ 53 ≤ 0 := by
      have : |q| ≤ 0 := by linarith
      exact div_nonpos_of_nonpos_of_nonneg this (by norm_num)
    linarith
  · have c1 : |q - k| ≤ A * (2 * (1 / 2 ^ 53) / (1 - 1 / 2 ^ 53)) := hq
    norm_num at c1 hr ⊢
    norm_num at hkq
    linarith

example : level64 (f64 (1 / 10)) (f64 (3 * (1 / 10))) = 3 ∧ |(3 : Int)| ≤ 2 ^ 50 := by decide +kernel

/-- **C92.** Levels keep the order of prices. -/
theorem C92_level_mono (tick : ℚ) (h : 0 < tick) {p q : ℚ} (hpq : p ≤ q) : level64 tick p ≤ level64 tick q :=
  rint_mono (f64_mono (div_le_div_of_nonneg_right hpq h.le))

example : level64 (1 / 4) 1 = 4 ∧ level64 (1 / 4) (9 / 8) = 4 ∧ level64 (1 / 4) (5 / 4) = 5 := by decide +kernel

/-- Amounts of the trades with side `s` whose level is `L`, in order. -/
def amountsAt (tick : ℚ) (s L : Int) (ts : List (ℚ × ℚ × Int)) : List ℚ :=
  (ts.filter (fun t => decide (t.2.2 = s ∧ level64 tick t.1 = L))).map (fun t => t.2.1)

theorem getElem?_modify_eq {α : Type} (l : List α) (i j : Nat) (f : α → α) :
    (l.modify i f)[j]? = (l[j]?).map (fun x => if i = j then f x else x) := by
  rw [List.getElem?_modify]
  by_cases h : i = j <;> simp [h]

theorem levelLoop64_spec (tick : ℚ) (low : Int) (n : Nat) : ∀ (ts : List (ℚ × ℚ × Int)) (st : Levels ℚ),
    (∀ t ∈ ts, low ≤ level64 tick t.1 ∧ level64 tick t.1 < low + n) →
    ∃ l, levelLoop64 tick low n st ts = .ok l ∧ ∀ j : Nat,
      l.buyVol[j]? = (st.buyVol[j]?).map (fun v => (amountsAt tick 1 (low + j) ts).foldl levelAdd32 v) ∧
      l.sellVol[j]? = (st.sellVol[j]?).map (fun v => (amountsAt tick (-1) (low + j) ts).foldl levelAdd32 v) ∧
      l.buyTicks[j]? = (st.buyTicks[j]?).map (fun v : Int => v + ((amountsAt tick 1 (low + j) ts).length : Int)) ∧
      l.sellTicks[j]? = (st.sellTicks[j]?).map (fun v : Int => v + ((amountsAt tick (-1) (low + j) ts).length : Int))
  | [], st, _ => ⟨st, rfl, fun j => by simp [amountsAt]⟩
  | t :: ts, st, h => by
    have ht := h t (by simp)
    have hrest := fun st' => levelLoop64_spec tick low n ts st' (fun x hx => h x (by simp [hx]))
    have hidx : 0 ≤ level64 tick t.1 - low ∧ level64 tick t.1 - low < n := by omega
    have hnat : ∀ j : Nat, ((level64 tick t.1 - low).toNat = j) ↔ level64 tick t.1 = low + j := by intro j; omega
    by_cases h1 : t.2.2 = 1
    · have hs : levelStep64 tick low n st t = .ok { st with
          buyVol := st.buyVol.modify (level64 tick t.1 - low).toNat (fun v => levelAdd32 v t.2.1),
          buyTicks := st.buyTicks.modify (level64 tick t.1 - low).toNat (· + 1) } := by
        unfold levelStep64; simp only; rw [if_pos hidx, if_pos h1]
      obtain ⟨l, hl, hj⟩ := hrest { st with
          buyVol := st.buyVol.modify (level64 tick t.1 - low).toNat (fun v => levelAdd32 v t.2.1),
          buyTicks := st.buyTicks.modify (level64 tick t.1 - low).toNat (· + 1) }
      refine ⟨l, by simp only [levelLoop64, hs]; exact hl, fun j => ?_⟩
      obtain ⟨a, b, c, d⟩ := hj j
      have e2 : amountsAt tick (-1) (low + j) (t :: ts) = amountsAt tick (-1) (low + j) ts := by
        unfold amountsAt
        rw [List.filter_cons_of_neg (by simp [h1])]
      rw [a, b, c, d, e2]
      refine ⟨?_, rfl, ?_, rfl⟩
      · rw [getElem?_modify_eq, Option.map_map]
        congr 1
        funext v
        by_cases hL : level64 tick t.1 = low + j
        · have : amountsAt tick 1 (low + j) (t :: ts) = t.2.1 :: amountsAt tick 1 (low + j) ts := by
            unfold amountsAt
            rw [List.filter_cons_of_pos (by simp [h1, hL]), List.map_cons]
          rw [this]
          simp [(hnat j).mpr hL]
        · have : amountsAt tick 1 (low + j) (t :: ts) = amountsAt tick 1 (low + j) ts := by
            unfold amountsAt
            rw [List.filter_cons_of_neg (by simp [hL])]
          rw [this]
          simp only [Function.comp_apply, if_neg (fun hh => hL ((hnat j).mp hh))]
      · rw [getElem?_modify_eq, Option.map_map]
        congr 1
        funext v
        by_cases hL : level64 tick t.1 = low + j
        · have : amountsAt tick 1 (low + j) (t :: ts) = t.2.1 :: amountsAt tick 1 (low + j) ts := by
            unfold amountsAt
            rw [List.filter_cons_of_pos (by simp [h1, hL]), List.map_cons]
          rw [this]
          simp [(hnat j).mpr hL]
          ring
        · have : amountsAt tick 1 (low + j) (t :: ts) = amountsAt tick 1 (low + j) ts := by
            unfold amountsAt
            rw [List.filter_cons_of_neg (by simp [hL])]
          rw [this]
          simp only [Function.comp_apply, if_neg (fun hh => hL ((hnat j).mp hh))]
    · by_cases h2 : t.2.2 = -1
      · have hs : levelStep64 tick low n st t = .ok { st with
            sellVol := st.sellVol.modify (level64 tick t.1 - low).toNat (fun v => levelAdd32 v t.2.1),
            sellTicks := st.sellTicks.modify (level64 tick t.1 - low).toNat (· + 1) } := by
          unfold levelStep64; simp only; rw [if_pos hidx, if_neg h1, if_pos h2]
        obtain ⟨l, hl, hj⟩ := hrest { st with
            sellVol := st.sellVol.modify (level64 tick t.1 - low).toNat (fun v => levelAdd32 v t.2.1),
            sellTicks := st.sellTicks.modify (level64 tick t.1 - low).toNat (· + 1) }
        refine ⟨l, by simp only [levelLoop64, hs]; exact hl, fun j => ?_⟩
        obtain ⟨a, b, c, d⟩ := hj j
        have e2 : amountsAt tick 1 (low + j) (t :: ts) = amountsAt tick 1 (low + j) ts := by
          unfold amountsAt
          rw [List.filter_cons_of_neg (by simp [h1])]
        rw [a, b, c, d, e2]
        refine ⟨rfl, ?_, rfl, ?_⟩
        · rw [getElem?_modify_eq, Option.map_map]
          congr 1
          funext v
          by_cases hL : level64 tick t.1 = low + j
          · have : amountsAt tick (-1) (low + j) (t :: ts) = t.2.1 :: amountsAt tick (-1) (low + j) ts := by
              unfold amountsAt
              rw [List.filter_cons_of_pos (by simp [h2, hL]), List.map_cons]
            rw [this]
            simp [(hnat j).mpr hL]
          · have : amountsAt tick (-1) (low + j) (t :: ts) = amountsAt tick (-1) (low + j) ts := by
              unfold amountsAt
              rw [List.filter_cons_of_neg (by simp [hL])]
            rw [this]
            simp only [Function.comp_apply, if_neg (fun hh => hL ((hnat j).mp hh))]
        · rw [getElem?_modify_eq, Option.map_map]
          congr 1
          funext v
          by_cases hL : level64 tick t.1 = low + j
          · have : amountsAt tick (-1) (low + j) (t :: ts) = t.2.1 :: amountsAt tick (-1) (low + j) ts := by
              unfold amountsAt
              rw [List.filter_cons_of_pos (by simp [h2, hL]), List.map_cons]
            rw [this]
            simp [(hnat j).mpr hL]
            ring
          · have : amountsAt tick (-1) (low + j) (t :: ts) = amountsAt tick (-1) (low + j) ts := by
              unfold amountsAt
              rw [List.filter_cons_of_neg (by simp [hL])]
            rw [this]
            simp only [Function.comp_apply, if_neg (fun hh => hL ((hnat j).mp hh))]
      · have hs : levelStep64 tick low n st t = .ok st := by
          unfold levelStep64; simp only; rw [if_pos hidx, if_neg h1, if_neg h2]
        obtain ⟨l, hl, hj⟩ := hrest st
        refine ⟨l, by simp only [levelLoop64, hs]; exact hl, fun j => ?_⟩
        have e1 : amountsAt tick 1 (low + j) (t :: ts) = amountsAt tick 1 (low + j) ts := by
          unfold amountsAt
          rw [List.filter_cons_of_neg (by simp [h1])]
        have e2 : amountsAt tick (-1) (low + j) (t :: ts) = amountsAt tick (-1) (low + j) ts := by
          unfold amountsAt
          rw [List.filter_cons_of_neg (by simp [h2])]
        rw [e1, e2]
        exact hj j

/-- Trades on the grid of step `T`: (tick number, amount, side). -/
def gridTrades (T : ℚ) (ts : List (Int × ℚ × Int)) : List (ℚ × ℚ × Int) := ts.map (fun t => (f64 ((t.1 : ℚ) * T), t.2.1, t.2.2))

/-- Amounts of the trades with side `s` at tick `L`. -/
def amountsAtTick (s L : Int) (ts : List (Int × ℚ × Int)) : List ℚ :=
  (ts.filter (fun t => decide (t.2.2 = s ∧ t.1 = L))).map (fun t => t.2.1)

theorem amountsAt_grid (T : ℚ) (hT : 0 < T) (s L : Int) (ts : List (Int × ℚ × Int)) (h : ∀ t ∈ ts, |t.1| ≤ 2 ^ 50) :
    amountsAt (f64 T) s L (gridTrades T ts) = amountsAtTick s L ts := by
  unfold amountsAt gridTrades amountsAtTick
  rw [List.filter_map, List.map_map]
  have : ts.filter ((fun t : ℚ × ℚ × Int => decide (t.2.2 = s ∧ level64 (f64 T) t.1 = L)) ∘
      (fun t : Int × ℚ × Int => (f64 ((t.1 : ℚ) * T), t.2.1, t.2.2))) = ts.filter (fun t => decide (t.2.2 = s ∧ t.1 = L)) := by
    apply List.filter_congr
    intro t ht
    simp only [Function.comp, C92_level_exact T hT t.1 (h t ht)]
  rw [this]
  rfl

/-- **C92.** For prices on a grid, whatever its step, the footprint computed in floats has exactly the ticks from low to high as
levels; each level counts exactly the buys and sells at that tick, and its volume is the float32 running sum of their amounts in
trade order. -/
theorem C92_grid_footprint (T : ℚ) (hT : 0 < T) (lo hi : Int) (hlh : lo ≤ hi) (hlo : |lo| ≤ 2 ^ 50) (hhi : |hi| ≤ 2 ^ 50)
    (ts : List (Int × ℚ × Int)) (h : ∀ t ∈ ts, lo ≤ t.1 ∧ t.1 ≤ hi) :
    ∃ l, footprint64 (f64 T) (f64 ((lo : ℚ) * T)) (f64 ((hi : ℚ) * T)) (gridTrades T ts) = .ok (lo, l) ∧
      ∀ k : Int, lo ≤ k → k ≤ hi →
        l.buyVol[(k - lo).toNat]? = some (levelVol32 (amountsAtTick 1 k ts)) ∧
        l.sellVol[(k - lo).toNat]? = some (levelVol32 (amountsAtTick (-1) k ts)) ∧
        l.buyTicks[(k - lo).toNat]? = some ((amountsAtTick 1 k ts).length : Int) ∧
        l.sellTicks[(k - lo).toNat]? = some ((amountsAtTick (-1) k ts).length : Int) := by
  have hsm : ∀ t ∈ ts, |t.1| ≤ 2 ^ 50 := by
    intro t ht
    obtain ⟨a, b⟩ := h t ht
    rw [abs_le] at hlo hhi ⊢
    omega
  have e1 := C92_level_exact T hT lo hlo
  have e2 := C92_level_exact T hT hi hhi
  unfold footprint64
  simp only [e1, e2]
  obtain ⟨l, hl, hj⟩ := levelLoop64_spec (f64 T) lo (hi - lo + 1).toNat (gridTrades T ts) (Levels.zero (hi - lo + 1).toNat) (by
    intro t ht
    unfold gridTrades at ht
    rw [List.mem_map] at ht
    obtain ⟨x, hx, rfl⟩ := ht
    simp only
    rw [C92_level_exact T hT x.1 (hsm x hx)]
    obtain ⟨a, b⟩ := h x hx
    omega)
  refine ⟨l, by rw [hl], fun k h1 h2 => ?_⟩
  obtain ⟨a, b, c, d⟩ := hj (k - lo).toNat
  have hk : lo + ((k - lo).toNat : Int) = k := by omega
  rw [hk, amountsAt_grid T hT _ _ _ hsm] at a b c d
  have hlt : (k - lo).toNat < (hi - lo + 1).toNat := by omega
  rw [a, b, c, d]
  simp only [Levels.zero]
  simp [hlt, levelVol32]

example : (∀ t ∈ ([(10, 1, 1), (12, 3 / 2, -1)] : List (Int × ℚ × Int)), 10 ≤ t.1 ∧ t.1 ≤ 12) ∧
    (footprint64 (f64 (1 / 10)) (f64 (10 * (1 / 10))) (f64 (12 * (1 / 10))) (gridTrades (1 / 10) [(10, 1, 1), (12, 3 / 2, -1)])).toOption.map
      (fun r => (r.1, r.2.buyVol, r.2.sellVol)) = some (10, [1, 0, 0], [0, 0, 3 / 2]) := by decide +kernel

/-! ### float32 volumes -/

/-- **C92.** The float32 volume of a level after `n` trades is the exact sum up to a factor `((1 ± 2^-24)(1 ± 2^-53))^n`. -/
theorem C92_level_volume (l : List ℚ) (h : ∀ v ∈ l, 0 ≤ v) :
    l.sum * ((1 - 1 / 2 ^ 24) * (1 - 1 / 2 ^ 53)) ^ l.length ≤ levelVol32 l ∧
    levelVol32 l ≤ l.sum * ((1 + 1 / 2 ^ 24) * (1 + 1 / 2 ^ 53)) ^ l.length := by
  have key : ∀ (l : List ℚ) (s S : ℚ) (k : Nat) (a b : ℚ), a = (1 - 1 / 2 ^ 24) * (1 - 1 / 2 ^ 53) →
      b = (1 + 1 / 2 ^ 24) * (1 + 1 / 2 ^ 53) → (∀ v ∈ l, 0 ≤ v) → 0 ≤ S →
      S * a ^ k ≤ s → s ≤ S * b ^ k →
      (S + l.sum) * a ^ (k + l.length) ≤ l.foldl levelAdd32 s ∧ l.foldl levelAdd32 s ≤ (S + l.sum) * b ^ (k + l.length) := by
    intro l
    induction l with
    | nil => intro s S k a b _ _ _ _ h1 h2; simpa using ⟨h1, h2⟩
    | cons v l ih =>
      intro s S k a b ha hb hl hS h1 h2
      have hv := hl v (by simp)
      have a0 : 0 ≤ a := by rw [ha]; norm_num
      have a1 : a ≤ 1 := by rw [ha]; norm_num
      have b1 : 1 ≤ b := by rw [hb]; norm_num
      have p0 : 0 ≤ a ^ k := pow_nonneg a0 k
      have p1 : a ^ k ≤ 1 := pow_le_one₀ a0 a1
      have q1 : 1 ≤ b ^ k := one_le_pow₀ b1
      have s1 : (S + v) * a ^ k ≤ s + v := by
        have : v * a ^ k ≤ v := mul_le_of_le_one_right hv p1
        linarith [add_mul S v (a ^ k)]
      have s2 : s + v ≤ (S + v) * b ^ k := by
        have : v ≤ v * b ^ k := le_mul_of_one_le_right hv q1
        linarith [add_mul S v (b ^ k)]
      have s0 : 0 ≤ s + v := le_trans (mul_nonneg (by linarith) p0) s1
      have f1 := f64_factor s0
      have f2 := f32_factor (f64_nonneg s0)
      have r1 : (s + v) * a ≤ levelAdd32 s v := by
        unfold levelAdd32
        refine le_trans ?_ f2.1
        rw [ha, mul_comm (1 - 1 / 2 ^ 24 : ℚ), ← mul_assoc]
        exact mul_le_mul_of_nonneg_right f1.1 (by norm_num)
      have r2 : levelAdd32 s v ≤ (s + v) * b := by
        unfold levelAdd32
        refine le_trans f2.2 ?_
        rw [hb, mul_comm (1 + 1 / 2 ^ 24 : ℚ), ← mul_assoc]
        exact mul_le_mul_of_nonneg_right f1.2 (by norm_num)
      have := ih (levelAdd32 s v) (S + v) (k + 1) a b ha hb (fun x hx => hl x (by simp [hx])) (by linarith)
        (by
          calc (S + v) * a ^ (k + 1) = (S + v) * a ^ k * a := by rw [pow_succ]; ring
            _ ≤ (s + v) * a := mul_le_mul_of_nonneg_right s1 a0
            _ ≤ _ := r1)
        (by
          calc levelAdd32 s v ≤ (s + v) * b := r2
            _ ≤ (S + v) * b ^ k * b := mul_le_mul_of_nonneg_right s2 (by linarith)
            _ = _ := by rw [pow_succ]; ring)
      rw [List.foldl_cons, List.sum_cons, List.length_cons, show k + (l.length + 1) = k + 1 + l.length by ring, ← add_assoc]
      exact this
  have := key l 0 0 0 _ _ rfl rfl h le_rfl (by simp) (by simp)
  simpa [levelVol32] using this

example : (∀ v ∈ ([1, 1 / 2 ^ 30] : List ℚ), 0 ≤ v) ∧ levelVol32 [1, 1 / 2 ^ 30] = 1 := by decide +kernel

/-- **C92.** Volumes that are multiples of a power of two and sum to less than `2^24` units are added exactly. -/
theorem C92_level_volume_exact (ms : List Int) (e : Int) (h : ∀ m ∈ ms, 0 ≤ m) (hs : ms.sum ≤ 2 ^ 24) :
    levelVol32 (ms.map (fun m : Int => (m : ℚ) * 2 ^ e)) = (ms.sum : ℚ) * 2 ^ e := by
  have key : ∀ (ms : List Int) (s : Int), 0 ≤ s → (∀ m ∈ ms, 0 ≤ m) → s + ms.sum ≤ 2 ^ 24 →
      (ms.map (fun m : Int => (m : ℚ) * 2 ^ e)).foldl levelAdd32 ((s : ℚ) * 2 ^ e) = ((s + ms.sum : Int) : ℚ) * 2 ^ e := by
    intro ms
    induction ms with
    | nil => intro s _ _ _; simp
    | cons m ms ih =>
      intro s hs hm hle
      have h0 := hm m (by simp)
      have hsum : 0 ≤ ms.sum := List.sum_nonneg (fun x hx => hm x (by simp [hx]))
      rw [List.sum_cons] at hle
      have hst : levelAdd32 ((s : ℚ) * 2 ^ e) ((m : ℚ) * 2 ^ e) = ((s + m : Int) : ℚ) * 2 ^ e := by
        unfold levelAdd32
        have e1 : (s : ℚ) * 2 ^ e + (m : ℚ) * 2 ^ e = ((s + m : Int) : ℚ) * 2 ^ e := by push_cast; ring
        have e2 : f64 (((s + m : Int) : ℚ) * 2 ^ e) = ((s + m : Int) : ℚ) * 2 ^ e :=
          rndBits_exact 53 (by norm_num) _ _ (by rw [abs_of_nonneg (by omega)]; omega)
        have e3 : f32 (((s + m : Int) : ℚ) * 2 ^ e) = ((s + m : Int) : ℚ) * 2 ^ e :=
          rndBits_exact 24 (by norm_num) _ _ (by rw [abs_of_nonneg (by omega)]; omega)
        rw [e1, e2, e3]
      rw [List.map_cons, List.foldl_cons, hst, ih (s + m) (by omega) (fun x hx => hm x (by simp [hx])) (by omega), List.sum_cons,
        add_assoc]
  have := key ms 0 le_rfl h (by omega)
  simpa [levelVol32] using this

example : (∀ m ∈ ([3, 5] : List Int), 0 ≤ m) ∧ ([3, 5] : List Int).sum ≤ 2 ^ 24 ∧ levelVol32 [3 / 4, 5 / 4] = 2 := by decide +kernel

theorem foldl_fixed {α β : Type} (f : β → α → β) (s : β) (x : α) (h : f s x = s) (m : Nat) : (List.replicate m x).foldl f s = s := by
  induction m with
  | zero => rfl
  | succ m ih => rw [List.replicate_succ, List.foldl_cons, h, ih]

/-- **C92, violation.** Level volumes stop growing: after a trade of `2^24` units, any number of trades of one unit adds nothing.  The
same trades add up exactly in the bar's own volume (a float64 sum). -/
theorem C92_volume_stalls (m : Nat) (hm : m ≤ 2 ^ 40) : levelVol32 (16777216 :: List.replicate m 1) = 16777216 ∧
    sum64 (16777216 :: List.replicate m 1) = 16777216 + m := by
  constructor
  · unfold levelVol32
    rw [List.foldl_cons]
    have h1 : levelAdd32 0 16777216 = 16777216 := by decide +kernel
    have h2 : levelAdd32 16777216 1 = 16777216 := by decide +kernel
    rw [h1, foldl_fixed _ _ _ h2]
  · have key : ∀ (m k : Nat), k + m ≤ 2 ^ 50 → (List.replicate m (1 : ℚ)).foldl (fun s v => f64 (s + v)) (k : ℚ) = ((k + m : Nat) : ℚ) := by
      intro m
      induction m with
      | zero => intro k _; simp
      | succ m ih =>
        intro k hk
        rw [List.replicate_succ, List.foldl_cons]
        have : f64 ((k : ℚ) + 1) = ((k + 1 : Nat) : ℚ) := by
          have := f64_int ((k : Int) + 1) (by rw [abs_of_nonneg (by omega)]; omega)
          push_cast at this ⊢
          exact this
        rw [this, ih (k + 1) (by omega)]
        congr 1
        ring
    unfold sum64
    rw [List.foldl_cons]
    have h1 : f64 (0 + 16777216) = ((16777216 : Nat) : ℚ) := by decide +kernel
    rw [h1, key m 16777216 (by omega)]
    push_cast
    rfl

example : levelVol32 [16777216, 1, 1] = 16777216 ∧ sum64 [16777216, 1, 1] = 16777218 := by decide +kernel

/-- **C92, violation.** So a level's volume depends on the order of its trades. -/
theorem C92_order_matters : levelVol32 [16777216, 1, 1] = 16777216 ∧ levelVol32 [1, 1, 16777216] = 16777218 := by
  refine ⟨by decide +kernel, by decide +kernel⟩

/-! ### Examples -/

/-- Prices in hundredths: 0.29, 0.30, 0.31 are levels 29, 30, 31 although none of the prices nor the step is exact in binary. -/
example : level64 (f64 (1 / 100)) (f64 (29 / 100)) = 29 ∧ level64 (f64 (1 / 100)) (f64 (31 / 100)) = 31 ∧
    f64 (29 / 100) / f64 (1 / 100) ≠ 29 := by
  refine ⟨by decide +kernel, by decide +kernel, by decide +kernel⟩

/-- Non-vacuity of `C92_grid_footprint`. -/
example : footprint64 (f64 (1 / 100)) (f64 (29 / 100)) (f64 (31 / 100)) (gridTrades (1 / 100) [(29, 2, 1), (31, 3, -1), (29, 1, 1)])
    = .ok (29, ⟨[3, 0, 0], [0, 0, 3], [2, 0, 0], [0, 0, 1]⟩) := by decide +kernel

/-- Non-vacuity of `C92_level_volume_exact`. -/
example : levelVol32 [3 / 2, 1 / 4] = 7 / 4 := by decide +kernel

end FinML
