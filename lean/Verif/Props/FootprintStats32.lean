/-
C125: imbalance flags, centre of trades, concentration and skew of a footprint in the arithmetic of the compiled code.
-/
import Verif.Model.Float64FootprintStats
import Verif.Props.Profile32
import Verif.Props.Footprint
import Verif.Props.Weights64

set_option linter.unusedSectionVars false

namespace FinML

/-! ### Lemmas -/

/-- A float32 number is an integer of at most 24 bits times a power of two. -/
theorem f32_rep (x : ℚ) (h : f32 x = x) : ∃ m e : Int, |m| ≤ 2 ^ 24 ∧ x = (m : ℚ) * 2 ^ e := by
  have hpos : ∀ x : ℚ, 0 < x → f32 x = x → ∃ m e : Int, |m| ≤ 2 ^ 24 ∧ x = (m : ℚ) * 2 ^ e := by
    intro x hx h
    obtain ⟨a, b⟩ := log2_bounds x hx
    unfold f32 at h
    rw [rndBits_pos 24 x hx] at h
    unfold rndAt at h
    refine ⟨_, _, ?_, h.symm⟩
    generalize Int.log 2 x = l at *
    have e0 : l - (((24 : Nat) : Int) - 1) = l - 23 := by norm_num
    rw [e0] at h ⊢
    generalize rint (x / 2 ^ (l - 23)) = m at *
    have hP := two_zpow_pos (l - 23)
    have e : (2 : ℚ) ^ (l + 1) = 2 ^ 24 * 2 ^ (l - 23) := by
      rw [show l + 1 = (24 : Int) + (l - 23) by ring, zpow_add₀ (by norm_num)]
      norm_num
    have h0 : (0 : ℚ) < m := by
      by_contra hneg
      rw [not_lt] at hneg
      have := mul_nonpos_of_nonpos_of_nonneg hneg hP.le
      linarith
    have h1 : (m : ℚ) < 2 ^ 24 := by
      have : (m : ℚ) * 2 ^ (l - 23) < 2 ^ 24 * 2 ^ (l - 23) := by rw [h, ← e]; exact b
      exact lt_of_mul_lt_mul_right this hP.le
    rw [abs_of_nonneg (by exact_mod_cast h0.le)]
    exact_mod_cast h1.le
  rcases lt_trichotomy x 0 with hx | hx | hx
  · obtain ⟨m, e, hm, he⟩ := hpos (-x) (by linarith) (by rw [f32_neg, h])
    exact ⟨-m, e, by rwa [abs_neg], by push_cast; linarith⟩
  · exact ⟨0, 0, by norm_num, by simpa using hx⟩
  · exact hpos x hx h

theorem f64_of_f32 (x : ℚ) (h : f32 x = x) : f64 x = x := by
  obtain ⟨m, e, hm, he⟩ := f32_rep x h
  rw [he]
  exact rndBits_exact 53 (by norm_num) m e (hm.trans (by norm_num))

/-- The float64 product of a float32 number and a factor of at most 29 bits is exact. -/
theorem f64_mul_exact (x m : ℚ) (h : f32 x = x) (hm : ∃ k e : Int, |k| ≤ 2 ^ 29 ∧ m = (k : ℚ) * 2 ^ e) : f64 (x * m) = x * m := by
  obtain ⟨a, e, ha, he⟩ := f32_rep x h
  obtain ⟨k, e', hk, he'⟩ := hm
  have hb : |a * k| ≤ 2 ^ 53 := by
    rw [abs_mul]
    calc |a| * |k| ≤ 2 ^ 24 * 2 ^ 29 := by gcongr
      _ = 2 ^ 53 := by norm_num
  have := rndBits_exact 53 (by norm_num) (a * k) (e + e') hb
  have e1 : x * m = ((a * k : Int) : ℚ) * 2 ^ (e + e') := by
    rw [he, he', zpow_add₀ (by norm_num)]; push_cast; ring
  rw [e1]; exact this

/-! ### Flags -/

/-- **C125 (flags).** Level `l` is flagged as a buy imbalance iff it is not the lowest level and its buy volume exceeds the
float64 product of the factor and the sell volume one level below; likewise for sell imbalances. -/
theorem C125_flags (levels : List Int) (buy sell : List ℚ) (m : ℚ) (hl : buy.length = sell.length)
    (l : Nat) (h : l < buy.length) :
    let st := footprintFeatures32 levels buy sell m
    st.buyImb.length = buy.length ∧ st.sellImb.length = buy.length ∧
    (st.buyImb[l]? = some true ↔ ∃ (_ : 0 < l), buy[l] > f64 (sell[l - 1] * m)) ∧
    (st.sellImb[l]? = some true ↔ ∃ (_ : l + 1 < buy.length), sell[l] > f64 (buy[l + 1] * m)) := by
  intro st
  show (buyImbalances64 buy sell m).length = _ ∧ (sellImbalances64 buy sell m).length = _ ∧
    ((buyImbalances64 buy sell m)[l]? = some true ↔ _) ∧ ((sellImbalances64 buy sell m)[l]? = some true ↔ _)
  unfold buyImbalances64 sellImbalances64
  by_cases h1 : buy.length > 1
  · rw [if_pos h1, if_pos h1]
    refine ⟨by simp; omega, by simp; omega, ?_, ?_⟩
    · cases l with
      | zero => simp
      | succ l =>
        rw [List.getElem?_cons_succ, List.getElem?_eq_getElem (by simp; omega)]
        simp
    · by_cases h2 : l + 1 < buy.length
      · rw [List.getElem?_append_left (by simp; omega), List.getElem?_eq_getElem (by simp; omega)]
        simp [h2]
      · rw [List.getElem?_append_right (by simp; omega)]
        have : l - (List.zipWith (fun s b => decide (s > f64 (b * m))) sell.dropLast buy.tail).length = 0 := by
          simp; omega
        rw [this]
        simp only [List.getElem?_cons_zero]
        constructor
        · intro h; cases h
        · rintro ⟨h, _⟩; exact absurd h h2
  · rw [if_neg h1, if_neg h1]
    have h0 : l = 0 := by omega
    subst h0
    refine ⟨by simp, by simp, ?_, ?_⟩
    · constructor
      · intro h'; simp [h] at h'
      · rintro ⟨h', _⟩; omega
    · constructor
      · intro h'; simp [h] at h'
      · rintro ⟨h', _⟩; omega

example : ([5, 9, 1] : List ℚ).length = ([2, 1, 4] : List ℚ).length ∧
    (footprintFeatures32 [10, 11, 12] [5, 9, 1] [2, 1, 4] 3).buyImb = [false, true, false] := by decide +kernel

/-- **C125 (no false flags).** For volumes stored in float32 a flag is never raised that exact arithmetic would not raise, for
any factor; and a flag is missed only at a level whose volume equals the rounded product (so exceeds the exact product by
at most one part in `2^53`). -/
theorem C125_no_false_flag (levels : List Int) (buy sell : List ℚ) (m : ℚ) (hl : buy.length = sell.length)
    (hb : AllF32 buy) (hs : AllF32 sell) (l : Nat) (h : l < buy.length) :
    let st := footprintFeatures32 levels buy sell m
    let ex := footprintFeatures levels buy sell m
    (st.buyImb[l]? = some true → ex.buyImb[l]? = some true) ∧
    (st.sellImb[l]? = some true → ex.sellImb[l]? = some true) ∧
    (ex.buyImb[l]? = some true → st.buyImb[l]? ≠ some true → buy[l] = f64 (sell[l - 1] * m)) ∧
    (ex.sellImb[l]? = some true → st.sellImb[l]? ≠ some true →
      ∃ (_ : l + 1 < buy.length), sell[l] = f64 (buy[l + 1] * m)) := by
  intro st ex
  obtain ⟨_, _, h3, h4⟩ := C125_flags levels buy sell m hl l h
  obtain ⟨_, _, g3, g4⟩ := C14_imbalance_flags levels buy sell m hl l h
  have key : ∀ x y : ℚ, f32 x = x → (x > f64 y → x > y) ∧ (x > y → ¬ x > f64 y → x = f64 y) := by
    intro x y hx
    have hx' := f64_of_f32 x hx
    constructor
    · intro h
      by_contra hn
      have := f64_mono (not_lt.mp hn)
      rw [hx'] at this
      linarith
    · intro h hn
      have := f64_mono h.le
      rw [hx'] at this
      exact le_antisymm (not_lt.mp hn) this
  have kb := key buy[l] (sell[l - 1] * m) (hb _ (List.getElem_mem h))
  refine ⟨?_, ?_, ?_, ?_⟩
  · intro hh
    obtain ⟨a, b⟩ := h3.mp hh
    exact g3.mpr ⟨a, kb.1 b⟩
  · intro hh
    obtain ⟨a, b⟩ := h4.mp hh
    exact g4.mpr ⟨a, (key sell[l] _ (hs _ (List.getElem_mem _))).1 b⟩
  · intro hh hn
    obtain ⟨a, b⟩ := g3.mp hh
    exact kb.2 b (fun hc => hn (h3.mpr ⟨a, hc⟩))
  · intro hh hn
    obtain ⟨a, b⟩ := g4.mp hh
    exact ⟨a, (key sell[l] _ (hs _ (List.getElem_mem _))).2 b (fun hc => hn (h4.mpr ⟨a, hc⟩))⟩

example : AllF32 [4, 3] ∧ AllF32 [1, 2] ∧ (footprintFeatures32 [100, 101] [4, 3] [1, 2] 2).buyImb = [false, true] := by
  refine ⟨?_, ?_, by decide +kernel⟩ <;> · unfold AllF32; decide +kernel

/-- **C125 (exact flags).** With a factor of at most 29 significant bits (such as the default 3.0) the flags and the longest
signed run are those of exact arithmetic on the stored volumes. -/
theorem C125_flags_exact (levels : List Int) (buy sell : List ℚ) (m : ℚ) (hb : AllF32 buy) (hs : AllF32 sell)
    (hm : ∃ k e : Int, |k| ≤ 2 ^ 29 ∧ m = (k : ℚ) * 2 ^ e) :
    (footprintFeatures32 levels buy sell m).buyImb = (footprintFeatures levels buy sell m).buyImb ∧
    (footprintFeatures32 levels buy sell m).sellImb = (footprintFeatures levels buy sell m).sellImb ∧
    (footprintFeatures32 levels buy sell m).maxRunSigned = (footprintFeatures levels buy sell m).maxRunSigned := by
  have gen : ∀ xs ys : List ℚ, AllF32 ys →
      List.zipWith (fun x y => decide (x > f64 (y * m))) xs ys = List.zipWith (fun x y => decide (x > y * m)) xs ys := by
    intro xs
    induction xs with
    | nil => intro ys _; simp
    | cons x xs ih =>
      intro ys hy
      cases ys with
      | nil => simp
      | cons y ys =>
        rw [List.zipWith_cons_cons, List.zipWith_cons_cons, ih ys (fun z hz => hy z (by simp [hz])),
          f64_mul_exact y m (hy y (by simp)) hm]
  have e1 : buyImbalances64 buy sell m = buyImbalances buy sell m := by
    unfold buyImbalances64 buyImbalances
    rw [gen _ _ (fun z hz => hs z (List.mem_of_mem_dropLast hz))]
  have e2 : sellImbalances64 buy sell m = sellImbalances buy sell m := by
    unfold sellImbalances64 sellImbalances
    rw [gen _ _ (fun z hz => hb z (List.mem_of_mem_tail hz))]
  refine ⟨e1, e2, ?_⟩
  show maxRunSigned (List.zipWith levelSign (buyImbalances64 buy sell m) (sellImbalances64 buy sell m)) = _
  rw [e1, e2]
  rfl

example : ∃ k e : Int, |k| ≤ 2 ^ 29 ∧ (3 : ℚ) = (k : ℚ) * 2 ^ e := ⟨3, 0, by norm_num, by norm_num⟩
example : AllF32 [1, 56, 15, 0] := by
  intro x hx
  have : ∀ x ∈ ([1, 56, 15, 0] : List ℚ), f32 x = x := by decide +kernel
  exact this x hx

/-- **C125 (a missed flag).** With the float64 factor nearest to 1/3 and volumes 1 and 3, the volume 1 exceeds the product, which
is below 1; the rounded product is 1 and the level is not flagged. -/
theorem C125_missed_flag :
    (footprintFeatures [0, 1] [0, 1] [3, 0] (f64 (1 / 3))).buyImb = [false, true] ∧
    (footprintFeatures32 [0, 1] [0, 1] [3, 0] (f64 (1 / 3))).buyImb = [false, false] := by
  decide +kernel

/-! ### Centre of trades -/

theorem total32_eq (buy sell : List ℚ) : total32 buy sell = (List.zipWith (· + ·) buy sell).map f32 := by
  rw [total32, List.map_zipWith]

/-- **C125 (centre of trades).** The reported level has the largest total volume up to one rounding: no other level's total,
rounded to float32, exceeds its own, and every lower level has a strictly smaller exact total.  In particular a level
whose total exceeds all others by more than one part in `2^23` is found. -/
theorem C125_cot (levels : List Int) (buy sell : List ℚ) (m : ℚ) (hl : buy.length = sell.length)
    (hlv : levels.length = buy.length) (hne : buy ≠ []) (hb : ∀ v ∈ buy, 0 ≤ v) (hs : ∀ v ∈ sell, 0 ≤ v) :
    ∃ i : Nat, ∃ (hi : i < buy.length),
      (footprintFeatures32 levels buy sell m).cot = levels[i] ∧
      (∀ (j : Nat) (hj : j < buy.length), f32 (buy[j] + sell[j]) ≤ f32 (buy[i] + sell[i]) ∧
        (buy[j] + sell[j]) * (1 - 1 / 2 ^ 24) ≤ (buy[i] + sell[i]) * (1 + 1 / 2 ^ 24)) ∧
      (∀ (j : Nat) (hj : j < i), buy[j] + sell[j] < buy[i] + sell[i] ∧ f32 (buy[j] + sell[j]) < f32 (buy[i] + sell[i])) := by
  have hne' : total32 buy sell ≠ [] := by
    intro h
    have := congrArg List.length h
    have h2 := List.length_pos_of_ne_nil hne
    rw [total32, List.length_zipWith, List.length_nil] at this; omega
  obtain ⟨b, h1, h2, h3⟩ := argmax_spec (total32 buy sell) hne'
  generalize hidef : argmax (total32 buy sell) = i at h1 h3
  obtain ⟨hi, h1⟩ := List.getElem?_eq_some_iff.mp h1
  have hi' : i < buy.length := by rw [total32, List.length_zipWith] at hi; omega
  have get : ∀ (j : Nat) (hj : j < buy.length), (total32 buy sell)[j]? = some (f32 (buy[j] + sell[j])) := by
    intro j hj
    rw [List.getElem?_eq_getElem (by rw [total32, List.length_zipWith]; omega)]
    simp [total32]
  have hbi : b = f32 (buy[i] + sell[i]) := by
    have := get i hi'
    rw [List.getElem?_eq_getElem hi, h1] at this
    exact Option.some.inj this
  refine ⟨i, hi', ?_, ?_, ?_⟩
  · show levels.getD (argmax (total32 buy sell)) 0 = _
    rw [hidef]
    rw [List.getD_eq_getElem?_getD, List.getElem?_eq_getElem (by omega)]; rfl
  · intro j hj
    have := h2 j _ (get j hj)
    rw [hbi] at this
    refine ⟨this, ?_⟩
    have a := f32_factor (add_nonneg (hb _ (List.getElem_mem hj)) (hs sell[j] (List.getElem_mem _)))
    have c := f32_factor (add_nonneg (hb _ (List.getElem_mem hi')) (hs sell[i] (List.getElem_mem _)))
    linarith [a.1, c.2]
  · intro j hj
    have := h3 j _ hj (get j (by omega))
    rw [hbi] at this
    refine ⟨?_, this⟩
    by_contra hn
    have := f32_mono (not_lt.mp hn)
    linarith

example : (∀ v ∈ ([5, 9, 1] : List ℚ), 0 ≤ v) ∧ (footprintFeatures32 [10, 11, 12] [5, 9, 1] [2, 1, 4] 3).cot = 11 := by decide +kernel

/-- **C125 (violation: centre of trades).** The level of the largest volume may be missed: with totals `2^24` and `2^24 + 1` the
second is rounded to the first, and the lower level is reported. -/
theorem C125_cot_missed :
    (footprintFeatures [100, 101] [16777216, 16777216] [0, 1] (3 : ℚ)).cot = 101 ∧
    (footprintFeatures32 [100, 101] [16777216, 16777216] [0, 1] 3).cot = 100 := by
  decide +kernel

/-! ### Concentration -/

theorem sum_map_le_map (l : List ℚ) (g h : ℚ → ℚ) (H : ∀ x ∈ l, g x ≤ h x) : (l.map g).sum ≤ (l.map h).sum := by
  induction l with
  | nil => simp
  | cons a l ih =>
    simp only [List.map_cons, List.sum_cons]
    exact add_le_add (H a (by simp)) (ih (fun x hx => H x (by simp [hx])))

theorem sum_map_mul_const (l : List ℚ) (g : ℚ → ℚ) (c : ℚ) : (l.map (fun x => g x * c)).sum = (l.map g).sum * c := by
  induction l with
  | nil => simp
  | cons a l ih => simp only [List.map_cons, List.sum_cons, ih]; ring

/-- The float32 sum of squared proportions of the rounded totals `E.map f32`, against the exact one. -/
theorem gini_core (E : List ℚ) (hE : ∀ x ∈ E, 0 ≤ x) (hpos : 0 < E.sum) :
    let S := npSum32 (E.map f32)
    let Q32 := npSum32 ((E.map f32).map (fun v => f32 (f32 (v / S) ^ 2)))
    let Q := (E.map (fun v => (v / E.sum) ^ 2)).sum
    0 < S ∧ Q * (1 - 1 / 2 ^ 24) ^ (3 * E.length + 7) ≤ Q32 ∧ Q32 * (1 - 1 / 2 ^ 24) ^ (3 * E.length + 7) ≤ Q := by
  intro S Q32 Q
  obtain ⟨n, hn⟩ : ∃ n, n = E.length := ⟨_, rfl⟩
  obtain ⟨d, hd⟩ : ∃ d : ℚ, d = 1 - 1 / 2 ^ 24 := ⟨_, rfl⟩
  obtain ⟨g, hg⟩ : ∃ g : ℚ, g = 1 + 1 / 2 ^ 24 := ⟨_, rfl⟩
  have hd0 : 0 < d := by rw [hd]; norm_num
  have hg0 : 0 < g := by rw [hg]; norm_num
  have hdg : d * g ≤ 1 := by rw [hd, hg]; norm_num
  have hEf : ∀ x ∈ E.map f32, 0 ≤ x := by
    intro x hx
    obtain ⟨y, hy, rfl⟩ := List.mem_map.mp hx
    exact f32_nonneg (hE y hy)
  have bS := npSum32_bounds (E.map f32) hEf
  rw [List.length_map, ← hn, ← hd, ← hg] at bS
  have s1 : E.sum * d ≤ (E.map f32).sum := by
    have := sum_map_le_map E (fun x => x * d) f32 (fun x hx => by rw [hd]; exact (f32_factor (hE x hx)).1)
    rw [sum_map_mul_const E (fun x => x) d, List.map_id'] at this
    exact this
  have s2 : (E.map f32).sum ≤ E.sum * g := by
    have := sum_map_le_map E f32 (fun x => x * g) (fun x hx => by rw [hg]; exact (f32_factor (hE x hx)).2)
    rw [sum_map_mul_const E (fun x => x) g, List.map_id'] at this
    exact this
  have S1 : E.sum * d ^ (n + 1) ≤ S := by
    refine le_trans ?_ bS.1
    calc E.sum * d ^ (n + 1) = E.sum * d * d ^ n := by ring
      _ ≤ (E.map f32).sum * d ^ n := by gcongr
  have S2 : S ≤ E.sum * g ^ (n + 1) := by
    refine bS.2.trans ?_
    calc (E.map f32).sum * g ^ n ≤ E.sum * g * g ^ n := by gcongr
      _ = E.sum * g ^ (n + 1) := by ring
  have hS : 0 < S := lt_of_lt_of_le (by positivity) S1
  have hgk : ∀ k : Nat, g ^ k * d ^ k ≤ 1 := by
    intro k
    rw [← mul_pow, mul_comm g d]
    exact pow_le_one₀ (by positivity) hdg
  -- S against E.sum, with only `d`
  have S3 : S * d ^ (n + 1) ≤ E.sum := by
    calc S * d ^ (n + 1) ≤ E.sum * g ^ (n + 1) * d ^ (n + 1) := by gcongr
      _ = E.sum * (g ^ (n + 1) * d ^ (n + 1)) := by ring
      _ ≤ E.sum * 1 := by gcongr; exact hgk _
      _ = E.sum := mul_one _
  have fac : ∀ x : ℚ, 0 ≤ x → x * d ≤ f32 x ∧ f32 x * d ≤ x := by
    intro x hx
    have a := f32_factor hx
    rw [← hd, ← hg] at a
    refine ⟨a.1, ?_⟩
    calc f32 x * d ≤ x * g * d := by gcongr; exact a.2
      _ = x * (d * g) := by ring
      _ ≤ x * 1 := by gcongr
      _ = x := mul_one _
  have term : ∀ x ∈ E, (x / E.sum) ^ 2 * d ^ (2 * n + 7) ≤ f32 (f32 (f32 x / S) ^ 2) ∧
      f32 (f32 (f32 x / S) ^ 2) * d ^ (2 * n + 7) ≤ (x / E.sum) ^ 2 := by
    intro x hx
    have hx0 := hE x hx
    have hf0 := f32_nonneg hx0
    have hq0 : 0 ≤ f32 x / S := by positivity
    have hp0 := f32_nonneg hq0
    obtain ⟨a1, a2⟩ := fac x hx0
    obtain ⟨b1, b2⟩ := fac (f32 x / S) hq0
    obtain ⟨c1, c2⟩ := fac (f32 (f32 x / S) ^ 2) (by positivity)
    have r0 : 0 ≤ x / E.sum := by positivity
    have r1 : x / E.sum * d ^ (n + 3) ≤ f32 (f32 x / S) := by
      refine le_trans ?_ b1
      have : x / E.sum * d ^ (n + 2) ≤ f32 x / S := by
        rw [le_div_iff₀ hS]
        calc x / E.sum * d ^ (n + 2) * S = x / E.sum * d * (S * d ^ (n + 1)) := by ring
          _ ≤ x / E.sum * d * E.sum := by gcongr
          _ = x * d := by field_simp
          _ ≤ f32 x := a1
      calc x / E.sum * d ^ (n + 3) = x / E.sum * d ^ (n + 2) * d := by ring
        _ ≤ f32 x / S * d := by gcongr
    have r2 : f32 (f32 x / S) * d ^ (n + 3) ≤ x / E.sum := by
      have : f32 x / S * d ^ (n + 2) ≤ x / E.sum := by
        rw [div_mul_eq_mul_div, div_le_iff₀ hS]
        calc f32 x * d ^ (n + 2) = f32 x * d * d ^ (n + 1) := by ring
          _ ≤ x * d ^ (n + 1) := by gcongr
          _ = x / E.sum * (E.sum * d ^ (n + 1)) := by field_simp
          _ ≤ x / E.sum * S := by gcongr
      calc f32 (f32 x / S) * d ^ (n + 3) = f32 (f32 x / S) * d * d ^ (n + 2) := by ring
        _ ≤ f32 x / S * d ^ (n + 2) := by gcongr
        _ ≤ _ := this
    constructor
    · refine le_trans ?_ c1
      calc (x / E.sum) ^ 2 * d ^ (2 * n + 7) = (x / E.sum * d ^ (n + 3)) ^ 2 * d := by ring
        _ ≤ f32 (f32 x / S) ^ 2 * d := by gcongr
    · calc f32 (f32 (f32 x / S) ^ 2) * d ^ (2 * n + 7) = f32 (f32 (f32 x / S) ^ 2) * d * d ^ (2 * (n + 3)) := by ring
        _ ≤ f32 (f32 x / S) ^ 2 * d ^ (2 * (n + 3)) := by gcongr
        _ = (f32 (f32 x / S) * d ^ (n + 3)) ^ 2 := by ring
        _ ≤ (x / E.sum) ^ 2 := by gcongr
  have hterm0 : ∀ x ∈ (E.map f32).map (fun v => f32 (f32 (v / S) ^ 2)), 0 ≤ x := by
    intro x hx
    obtain ⟨y, _, rfl⟩ := List.mem_map.mp hx
    exact f32_nonneg (by positivity)
  have bQ := npSum32_bounds _ hterm0
  rw [List.length_map, List.length_map, ← hn, ← hd, ← hg, List.map_map] at bQ
  obtain ⟨P, hP⟩ : ∃ P, P = (E.map ((fun v => f32 (f32 (v / S) ^ 2)) ∘ f32)).sum := ⟨_, rfl⟩
  have hQ32 : Q32 = npSum32 (E.map ((fun v => f32 (f32 (v / S) ^ 2)) ∘ f32)) := by
    show npSum32 ((E.map f32).map _) = _
    rw [List.map_map]
  rw [← hP, ← hQ32] at bQ
  have p1 : Q * d ^ (2 * n + 7) ≤ P := by
    rw [hP, ← sum_map_mul_const]
    exact sum_map_le_map E _ _ (fun x hx => (term x hx).1)
  have p2 : P * d ^ (2 * n + 7) ≤ Q := by
    rw [hP, ← sum_map_mul_const]
    exact sum_map_le_map E _ _ (fun x hx => (term x hx).2)
  have hP0 : 0 ≤ P := by
    rw [hP]
    apply List.sum_nonneg
    intro x hx
    obtain ⟨y, _, rfl⟩ := List.mem_map.mp hx
    exact f32_nonneg (by positivity)
  refine ⟨hS, ?_, ?_⟩
  · rw [← hn, ← hd]
    refine le_trans ?_ bQ.1
    calc Q * d ^ (3 * n + 7) = Q * d ^ (2 * n + 7) * d ^ n := by ring
      _ ≤ P * d ^ n := by gcongr
  · rw [← hn, ← hd]
    calc Q32 * d ^ (3 * n + 7) ≤ P * g ^ n * d ^ (3 * n + 7) := by gcongr; exact bQ.2
      _ = P * d ^ (2 * n + 7) * (g ^ n * d ^ n) := by ring
      _ ≤ P * d ^ (2 * n + 7) * 1 := by gcongr; exact hgk n
      _ ≤ Q := by linarith

theorem gini_close (Q Q32 u N : ℚ) (hu : 0 ≤ N * u) (hN : N * u ≤ 1 / 2) (hQ0 : 0 ≤ Q) (hQ1 : Q ≤ 1)
    (h1 : Q * (1 - N * u) ≤ Q32) (h2 : Q32 * (1 - N * u) ≤ Q) : |Q32 - Q| ≤ 2 * (N * u) ∧ 0 ≤ Q32 ∧ Q32 ≤ 2 := by
  generalize N * u = t at *
  have h0 : 0 ≤ Q32 := le_trans (mul_nonneg hQ0 (by linarith)) h1
  have h3 : Q32 ≤ 2 := by nlinarith
  refine ⟨?_, h0, h3⟩
  rw [abs_le]
  constructor <;> nlinarith

/-- **C125 (concentration).** For non-negative volumes with a positive total and up to `2^21` levels, the concentration measure is
that of exact arithmetic up to `(3 n + 8) / 2^23`, where `n` is the number of levels; so it lies in
`[-(3 n + 8) / 2^23, 1 - 1 / n + (3 n + 8) / 2^23]`. -/
theorem C125_gini (levels : List Int) (buy sell : List ℚ) (m : ℚ) (hl : buy.length = sell.length)
    (hlv : levels.length = buy.length) (hb : ∀ v ∈ buy, 0 ≤ v) (hs : ∀ v ∈ sell, 0 ≤ v)
    (hpos : 0 < (List.zipWith (· + ·) buy sell).sum) (hn : buy.length ≤ 2 ^ 21) :
    let g := (footprintFeatures32 levels buy sell m).vpGini
    |g - (footprintFeatures levels buy sell m).vpGini| ≤ (3 * (buy.length : ℚ) + 8) / 2 ^ 23 ∧
    -(3 * (buy.length : ℚ) + 8) / 2 ^ 23 ≤ g ∧ g ≤ 1 - 1 / (buy.length : ℚ) + (3 * (buy.length : ℚ) + 8) / 2 ^ 23 := by
  intro g
  have hne : buy ≠ [] := by
    rintro rfl
    simp at hpos
  have hrange := C15_gini_range levels buy sell m hl hlv hne hb hs
  suffices hkey : |g - (footprintFeatures levels buy sell m).vpGini| ≤ (3 * (buy.length : ℚ) + 8) / 2 ^ 23 by
    refine ⟨hkey, ?_, ?_⟩
    · have := (abs_le.mp hkey).1
      rw [neg_div]; linarith [hrange.1]
    · have := (abs_le.mp hkey).2
      linarith [hrange.2]
  have hlen : 0 < levels.length := by rw [hlv]; exact List.length_pos_of_ne_nil hne
  have hex : (footprintFeatures levels buy sell m).vpGini =
      1 - ((List.zipWith (· + ·) buy sell).map (fun v => (v / (List.zipWith (· + ·) buy sell).sum) ^ 2)).sum := by
    show (profileStats levels (List.zipWith (· + ·) buy sell)).2 = _
    unfold profileStats
    simp only [if_pos (show (List.zipWith (· + ·) buy sell).sum > 0 ∧ levels.length > 0 from ⟨hpos, hlen⟩)]
  have hE : ∀ x ∈ List.zipWith (· + ·) buy sell, 0 ≤ x := by
    intro v hv
    obtain ⟨i, hi, rfl⟩ := List.getElem_of_mem hv
    simp only [List.getElem_zipWith]
    exact add_nonneg (hb _ (List.getElem_mem _)) (hs _ (List.getElem_mem _))
  obtain ⟨c0, c1, c2⟩ := gini_core _ hE hpos
  have hg : g = f64 (1 - npSum32 (((List.zipWith (· + ·) buy sell).map f32).map
      (fun v => f32 (f32 (v / npSum32 ((List.zipWith (· + ·) buy sell).map f32)) ^ 2)))) := by
    show profileGini32 levels (total32 buy sell) = _
    rw [total32_eq, profileGini32, if_pos ⟨c0, hlen⟩]
  have hEl : (List.zipWith (· + ·) buy sell).length = buy.length := by simp; omega
  rw [hEl] at c1 c2
  rw [hex] at hrange ⊢
  rw [hg]
  generalize npSum32 (((List.zipWith (· + ·) buy sell).map f32).map
      (fun v => f32 (f32 (v / npSum32 ((List.zipWith (· + ·) buy sell).map f32)) ^ 2))) = Q32 at c1 c2 ⊢
  have hQ0 : 0 ≤ ((List.zipWith (· + ·) buy sell).map (fun v => (v / (List.zipWith (· + ·) buy sell).sum) ^ 2)).sum := by
    apply List.sum_nonneg
    intro x hx
    obtain ⟨y, _, rfl⟩ := List.mem_map.mp hx
    positivity
  generalize ((List.zipWith (· + ·) buy sell).map (fun v => (v / (List.zipWith (· + ·) buy sell).sum) ^ 2)).sum = Q
    at c1 c2 hrange hQ0 ⊢
  obtain ⟨n, hnd⟩ : ∃ n, n = buy.length := ⟨_, rfl⟩
  rw [← hnd] at c1 c2 hn ⊢
  have hnq : (n : ℚ) ≤ 2 ^ 21 := by exact_mod_cast hn
  have hn0 : (0 : ℚ) ≤ n := Nat.cast_nonneg n
  have hpow : 1 - (3 * (n : ℚ) + 7) * (1 / 2 ^ 24) ≤ (1 - 1 / 2 ^ 24) ^ (3 * n + 7) := by
    have := one_add_mul_le_pow (a := (-(1 / 2 ^ 24) : ℚ)) (by norm_num) (3 * n + 7)
    push_cast at this
    have e : (1 + -(1 / 2 ^ 24) : ℚ) = 1 - 1 / 2 ^ 24 := by ring
    rw [e] at this
    linarith
  have hQ1 : Q ≤ 1 := by linarith [hrange.1]
  have hdp : (0 : ℚ) ≤ (1 - 1 / 2 ^ 24) ^ (3 * n + 7) := by
    apply pow_nonneg; norm_num
  have hQ32 : 0 ≤ Q32 := le_trans (mul_nonneg hQ0 hdp) c1
  obtain ⟨k1, k2, k3⟩ := gini_close Q Q32 (1 / 2 ^ 24) (3 * n + 7) (by positivity)
    (by linarith) hQ0 hQ1 (le_trans (mul_le_mul_of_nonneg_left hpow hQ0) c1)
    (le_trans (mul_le_mul_of_nonneg_left hpow hQ32) c2)
  have hr := f64_relErr (1 - Q32)
  have ha : |1 - Q32| ≤ 1 := by rw [abs_le]; constructor <;> linarith
  have hr' : |f64 (1 - Q32) - (1 - Q32)| ≤ 1 / 2 ^ 53 := hr.trans (by gcongr)
  have tri : |f64 (1 - Q32) - (1 - Q)| ≤ |f64 (1 - Q32) - (1 - Q32)| + |Q32 - Q| := by
    have e : f64 (1 - Q32) - (1 - Q) = (f64 (1 - Q32) - (1 - Q32)) + -(Q32 - Q) := by ring
    rw [e, ← abs_neg (Q32 - Q)]
    exact abs_add_le _ _
  refine tri.trans ?_
  linarith

example : (footprintFeatures32 [100, 101, 102] [1, 2, 3] [1, 0, 2] 3).vpGini ≠
    (footprintFeatures [100, 101, 102] [1, 2, 3] [1, 0, 2] (3 : ℚ)).vpGini := by decide +kernel

/-! ### Skew -/

theorem f32_odd (L : Int) (h1 : 2 ^ 23 ≤ L) (h2 : L + 1 < 2 ^ 24) :
    f32 (((2 * L + 1 : Int)) : ℚ) = if L % 2 = 0 then ((2 * L : Int) : ℚ) else ((2 * L + 2 : Int) : ℚ) := by
  have q1 : (2 : ℚ) ^ (24 : Int) ≤ ((2 * L + 1 : Int) : ℚ) := by
    have : (2 ^ 24 : Int) ≤ 2 * L + 1 := by omega
    exact_mod_cast this
  have q2 : ((2 * L + 1 : Int) : ℚ) < (2 : ℚ) ^ ((24 : Int) + 1) := by
    have : 2 * L + 1 < (2 ^ 25 : Int) := by omega
    exact_mod_cast this
  unfold f32
  rw [rndBits_binade 24 _ 24 q1 q2]
  unfold rndAt
  have e : ((24 : Int) - (((24 : Nat) : Int) - 1)) = 1 := by norm_num
  rw [e, zpow_one]
  split_ifs with hp
  · have : ((2 * L + 1 : Int) : ℚ) / 2 = 1 / 2 + 2 * ((L / 2 : Int) : ℚ) := by
      have : L = 2 * (L / 2) := by omega
      have h : (L : ℚ) = 2 * ((L / 2 : Int) : ℚ) := by exact_mod_cast this
      push_cast
      linarith
    rw [this, rint_add_even, show rint (1 / 2 : ℚ) = 0 by decide +kernel]
    have : 0 + 2 * (L / 2) = L := by omega
    rw [this]; push_cast; ring
  · have : ((2 * L + 1 : Int) : ℚ) / 2 = 3 / 2 + 2 * ((L / 2 : Int) : ℚ) := by
      have : L = 2 * (L / 2) + 1 := by omega
      have h : (L : ℚ) = 2 * ((L / 2 : Int) : ℚ) + 1 := by exact_mod_cast this
      push_cast
      linarith
    rw [this, rint_add_even, show rint (3 / 2 : ℚ) = 2 by decide +kernel]
    have : 2 + 2 * (L / 2) = L + 1 := by omega
    rw [this]; push_cast; ring

theorem f32_intExact (L : Int) (h : |L| ≤ 2 ^ 24) : f32 (L : ℚ) = L := by
  have := rndBits_exact 24 (by norm_num) L 0 h
  simpa [f32] using this

/-- **C125 (violation: skew).** Between `2^23` and `2^24` ticks (83886.08 to 167772.16 at a tick of 0.01), a bar with volume 1
on each of two adjacent levels has an exact skew of 0 (as every bar, C15), but the compiled code reports plus or minus half
a tick, the sign depending on the parity of the price in ticks. -/
theorem C125_skew_noise (L : Int) (m : ℚ) (h1 : 2 ^ 23 ≤ L) (h2 : L + 1 < 2 ^ 24) :
    (footprintFeatures32 [L, L + 1] [1, 1] [0, 0] m).vpSkew = (if L % 2 = 0 then 1 / 2 else -(1 / 2)) ∧
    (footprintFeatures [L, L + 1] [1, 1] [0, 0] m).vpSkew = 0 := by
  refine ⟨?_, C15_skew_always_zero _ _ _ _ rfl rfl⟩
  have i1 : f32 1 = 1 := by decide +kernel
  have i2 : f32 2 = 2 := by decide +kernel
  have ih : f32 (1 / 2) = 1 / 2 := by decide +kernel
  have inh : f32 (-(1 / 2)) = -(1 / 2) := by decide +kernel
  have in1 : f32 (-1) = -1 := by decide +kernel
  have iL : f32 (L : ℚ) = L := f32_intExact L (by rw [abs_of_nonneg (by omega)]; omega)
  have iL1 : f32 ((L + 1 : Int) : ℚ) = ((L + 1 : Int) : ℚ) := f32_intExact (L + 1) (by rw [abs_of_nonneg (by omega)]; omega)
  have ht : total32 [1, 1] [0, 0] = [1, 1] := by decide +kernel
  have hs : npSum32 [1, 1] = 2 := by decide +kernel
  show profileSkew32 [L, L + 1] (total32 [1, 1] [0, 0]) = _
  rw [ht]
  have hc : levelMean32 [L, L + 1] [1, 1] = if L % 2 = 0 then (L : ℚ) else ((L + 1 : Int) : ℚ) := by
    unfold levelMean32
    rw [hs]
    simp only [List.zipWith_cons_cons, List.zipWith_nil_left, mul_one, npSum32, List.foldl_cons, List.foldl_nil, iL, iL1, zero_add]
    have e : (L : ℚ) + ((L + 1 : Int) : ℚ) = ((2 * L + 1 : Int) : ℚ) := by push_cast; ring
    rw [e, f32_odd L h1 h2]
    split_ifs with hp
    · rw [show ((2 * L : Int) : ℚ) / 2 = L by push_cast; ring, iL]
    · rw [show ((2 * L + 2 : Int) : ℚ) / 2 = ((L + 1 : Int) : ℚ) by push_cast; ring, iL1]
  unfold profileSkew32
  rw [hs, if_pos ⟨by norm_num, by simp⟩, hc]
  split_ifs with hp
  · simp only [List.zipWith_cons_cons, List.zipWith_nil_left, mul_one, npSum32, List.foldl_cons, List.foldl_nil, iL, iL1, zero_add,
      sub_self, f32_zero]
    rw [show ((L + 1 : Int) : ℚ) - L = 1 by push_cast; ring, i1, i1, i1, ih]
  · simp only [List.zipWith_cons_cons, List.zipWith_nil_left, mul_one, npSum32, List.foldl_cons, List.foldl_nil, iL, iL1, zero_add,
      sub_self, f32_zero]
    rw [show (L : ℚ) - ((L + 1 : Int) : ℚ) = -1 by push_cast; ring, in1, in1, add_zero, in1, in1,
      show (-1 : ℚ) / 2 = -(1 / 2) by norm_num, inh]

example : (2 : Int) ^ 23 ≤ 8388610 ∧ (8388610 : Int) + 1 < 2 ^ 24 := by decide

/-- The size of a rounded number. -/
theorem f32_abs_le (x B : ℚ) (h : |x| ≤ B) : |f32 x| ≤ B * (1 + 1 / 2 ^ 24) := by
  have h1 : |f32 x - x| ≤ |x| / 2 ^ 24 := rndBits_relErr 24 x
  calc |f32 x| = |(f32 x - x) + x| := by congr 1; ring
    _ ≤ _ := abs_add_le _ _
    _ ≤ |x| * (1 + 1 / 2 ^ 24) := by linarith
    _ ≤ _ := by gcongr

/-- **C125.** The skew of a bar on one level `p` is at most `3 |p| 2^-24` (exactly it is 0). -/
theorem C125_skew_one_level (p : Int) (v : ℚ) (hp : |p| ≤ 2 ^ 24) (hv : 0 < v) (hr : f32 v = v) :
    |profileSkew32 [p] [v]| ≤ 3 * |(p : ℚ)| / 2 ^ 24 := by
  have hn : npSum32 [v] = v := by simp [npSum32, hr]
  have h1 : ∀ x, npSum32 [f32 x] = f32 x := fun x => by
    have := rndBits_idem 24 (by norm_num) x
    simp only [npSum32, List.foldl_cons, List.foldl_nil, zero_add]
    exact this
  unfold profileSkew32
  rw [hn, if_pos ⟨hv, by simp⟩]
  unfold levelMean32
  simp only [List.zipWith_cons_cons, List.zipWith_nil_left, hn, h1, f32_intExact p hp]
  have hp0 := abs_nonneg (p : ℚ)
  have a1 : |f32 ((p : ℚ) * v) - p * v| ≤ |(p : ℚ) * v| / 2 ^ 24 := rndBits_relErr 24 _
  generalize f32 ((p : ℚ) * v) = A at *
  have a2 : |A / v - p| ≤ |(p : ℚ)| / 2 ^ 24 := by
    rw [show A / v - p = (A - p * v) / v by field_simp, abs_div, abs_of_pos hv, div_le_iff₀ hv]
    rw [abs_mul, abs_of_pos hv] at a1
    exact a1.trans (le_of_eq (by ring))
  have a3 : |f32 (A / v) - A / v| ≤ |A / v| / 2 ^ 24 := rndBits_relErr 24 _
  have a4 : |A / v| ≤ |(p : ℚ)| * (1 + 1 / 2 ^ 24) := by
    calc |A / v| = |(A / v - p) + p| := by congr 1; ring
      _ ≤ _ := abs_add_le _ _
      _ ≤ _ := by linarith
  generalize A / v = a at *
  have a5 : |(p : ℚ) - f32 a| ≤ |(p : ℚ)| * (2 / 2 ^ 24 + 1 / 2 ^ 24 / 2 ^ 24) := by
    calc |(p : ℚ) - f32 a| = |(f32 a - a) + (a - p)| := by rw [abs_sub_comm]; congr 1; ring
      _ ≤ _ := abs_add_le _ _
      _ ≤ |a| / 2 ^ 24 + |(p : ℚ)| / 2 ^ 24 := add_le_add a3 a2
      _ ≤ |(p : ℚ)| * (1 + 1 / 2 ^ 24) / 2 ^ 24 + |(p : ℚ)| / 2 ^ 24 := by gcongr
      _ = _ := by ring
  have a6 := f32_abs_le _ _ a5
  generalize f32 ((p : ℚ) - f32 a) = d at *
  have a7 : |d * v| ≤ |(p : ℚ)| * (2 / 2 ^ 24 + 1 / 2 ^ 24 / 2 ^ 24) * (1 + 1 / 2 ^ 24) * v := by
    rw [abs_mul, abs_of_pos hv]; gcongr
  have a8 := f32_abs_le _ _ a7
  have a9 : |f32 (d * v) / v| ≤ |(p : ℚ)| * (2 / 2 ^ 24 + 1 / 2 ^ 24 / 2 ^ 24) * (1 + 1 / 2 ^ 24) * (1 + 1 / 2 ^ 24) := by
    rw [abs_div, abs_of_pos hv, div_le_iff₀ hv]
    exact a8.trans (le_of_eq (by ring))
  refine (f32_abs_le _ _ a9).trans ?_
  norm_num
  linarith

example : |(10002 : Int)| ≤ 2 ^ 24 ∧ f32 (f32 (19 / 10)) = f32 (19 / 10) := by decide +kernel

/-- **C125 (violation: skew).** One level is enough for noise: volume 1.9 at level 10002 has skew `2^-10`, volume 0.1 at level 13 has
skew `-2^-20`. -/
theorem C125_skew_noise_one_level : profileSkew32 [10002] [f32 (19 / 10)] = 1 / 2 ^ 10 ∧ profileSkew32 [13] [f32 (1 / 10)] = -(1 / 2 ^ 20) := by
  decide +kernel

end FinML
