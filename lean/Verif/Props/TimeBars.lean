/-
C01, C02: time bars (`finmlkit/bar/logic.py:_time_bar_indexer`).
-/
import Verif.Lemmas.Search

namespace FinML

/-! ## Specification -/

/-- Trade number `j` belongs to bar number `i`: bars are delimited by close indices, start exclusive,
end inclusive (the convention of `bar/base.py:342-343,356-366`). -/
def InBar (closeIdx : List Int) (i j : Nat) : Prop :=
  ∃ (h : i + 1 < closeIdx.length), closeIdx[i] < (j : Int) ∧ (j : Int) ≤ closeIdx[i + 1]

/-! ## C01 -/

/-- The clock is non-empty for sorted trades. -/
theorem timeBarClock_length_pos (ts : List Int) (I : Int) (hI : 0 < I) (hne : ts ≠ [])
    (hs : ts.Pairwise (· ≤ ·)) : 1 < (timeBarClock ts I).length := by
  unfold timeBarClock
  simp only
  rw [lt_arange_length hI]
  have h1 : ts.headD 0 ≤ ts.getLastD 0 := by
    cases ts with
    | nil => exact absurd rfl hne
    | cons a l =>
      simp only [List.headD_cons, List.getLastD_cons]
      cases l with
      | nil => simp
      | cons b l =>
        rw [List.pairwise_cons] at hs
        apply hs.1
        rw [List.getLastD_eq_getLast?, List.getLast?_eq_some_getLast (by simp)]
        exact List.getLast_mem _
  have h2 := ceilDiv_mul_ge (ts.getLastD 0) hI
  have h3 := Int.ediv_mul_le (ts.headD 0) (ne_of_gt hI)
  push_cast; omega

/-- **C01.** The time-bar clock is a run of consecutive multiples of the interval; its first value is
the multiple of the interval at or just before the first trade; its last value is at or after the last
trade (by at least one and less than two intervals, so the last bar is always empty; see C86 for float64); and there is one
close index per clock value. -/
theorem C01_timeBars_clock (ts : List Int) (I : Int) (hI : 0 < I) (hne : ts ≠ [])
    (hs : ts.Pairwise (· ≤ ·)) :
    let clock := (timeBarIndexer ts I).1
    (∀ c ∈ clock, I ∣ c) ∧
    (∀ (i : Nat) (h : i + 1 < clock.length), clock[i + 1] = clock[i] + I) ∧
    (∃ c₀ ∈ clock.head?, c₀ ≤ ts.head hne ∧ ts.head hne < c₀ + I) ∧
    (∃ c₁ ∈ clock.getLast?, ts.getLast hne + I ≤ c₁ ∧ c₁ < ts.getLast hne + 2 * I) ∧
    (timeBarIndexer ts I).2.length = clock.length := by
  simp only [timeBarIndexer, List.length_map, and_true]
  have hlen := timeBarClock_length_pos ts I hI hne hs
  have hd : ts.headD 0 = ts.head hne := by
    cases ts with
    | nil => exact absurd rfl hne
    | cons a l => rfl
  have hl : ts.getLastD 0 = ts.getLast hne := by
    rw [List.getLastD_eq_getLast?, List.getLast?_eq_some_getLast hne]; rfl
  have hget : ∀ (i : Nat) (h : i < (timeBarClock ts I).length),
      (timeBarClock ts I)[i] = ts.head hne / I * I + i * I := by
    intro i h
    simp only [timeBarClock, arange_getElem, hd]
  have hlt : ∀ i : Nat, i < (timeBarClock ts I).length ↔
      ts.head hne / I * I + i * I < ceilDiv (ts.getLast hne) I * I + I + 1 := by
    intro i
    simp only [timeBarClock, lt_arange_length hI, hd, hl]
  refine ⟨?_, ?_, ?_, ?_⟩
  · intro c hc
    obtain ⟨i, h, rfl⟩ := List.getElem_of_mem hc
    rw [hget]
    exact Dvd.dvd.add (Dvd.intro_left _ rfl) (Dvd.intro_left _ rfl)
  · intro i h
    rw [hget, hget]; push_cast; ring
  · refine ⟨(timeBarClock ts I)[0], ?_, ?_, ?_⟩
    · rw [List.head?_eq_getElem?, List.getElem?_eq_getElem]; rfl
    · rw [hget]; have := Int.ediv_mul_le (ts.head hne) (ne_of_gt hI); simpa using this
    · rw [hget]
      have := Int.lt_ediv_add_one_mul_self (ts.head hne) hI
      have h2 : (ts.head hne / I + 1) * I = ts.head hne / I * I + I := by ring
      rw [h2] at this; simpa using this
  · set m := (timeBarClock ts I).length - 1 with hm
    have hmlt : m < (timeBarClock ts I).length := by omega
    refine ⟨(timeBarClock ts I)[m], ?_, ?_⟩
    · rw [List.getLast?_eq_getElem?, List.getElem?_eq_getElem hmlt]; rfl
    · rw [hget]
      have h1 := (hlt m).mp hmlt
      have h2 : ¬ (m + 1 < (timeBarClock ts I).length) := by omega
      rw [hlt] at h2
      have h3 := ceilDiv_mul_ge (ts.getLast hne) hI
      have h4 := ceilDiv_mul_lt (ts.getLast hne) hI
      push_cast at h2
      -- both are multiples of `I`
      have h5 : (ts.head hne / I + m) < ceilDiv (ts.getLast hne) I + 2 := by
        by_contra hc
        have : (ceilDiv (ts.getLast hne) I + 2) * I ≤ (ts.head hne / I + m) * I :=
          Int.mul_le_mul_of_nonneg_right (by omega) (le_of_lt hI)
        nlinarith
      have h6 : ceilDiv (ts.getLast hne) I + 1 ≤ ts.head hne / I + m := by
        by_contra hc
        have : (ts.head hne / I + m) * I ≤ (ceilDiv (ts.getLast hne) I) * I :=
          Int.mul_le_mul_of_nonneg_right (by omega) (le_of_lt hI)
        nlinarith
      have h7 : ts.head hne / I + m = ceilDiv (ts.getLast hne) I + 1 := by omega
      have h8 : ts.head hne / I * I + m * I = ceilDiv (ts.getLast hne) I * I + I := by
        have : ts.head hne / I * I + m * I = (ts.head hne / I + m) * I := by ring
        rw [this, h7]; ring
      constructor <;> omega

example : timeBarIndexer [5, 10, 11, 30] 10 = ([0, 10, 20, 30, 40], [-1, 1, 2, 3, 3]) := by decide

/-! ## C02 -/

/-- **C02.** For sorted trades, trade `j` belongs to bar `i` exactly when its timestamp lies in the
half-open interval `(clock[i], clock[i+1]]`. -/
theorem C02_timeBars_assignment (ts : List Int) (I : Int) (hs : ts.Pairwise (· ≤ ·))
    (i j : Nat) (hi : i + 1 < (timeBarIndexer ts I).1.length) (hj : j < ts.length) :
    InBar (timeBarIndexer ts I).2 i j ↔
      (timeBarIndexer ts I).1[i] < ts[j] ∧ ts[j] ≤ (timeBarIndexer ts I).1[i + 1] := by
  unfold InBar
  simp only [timeBarIndexer, List.length_map, List.getElem_map] at hi ⊢
  have e1 := lt_searchRight hs ((timeBarClock ts I)[i]) j hj
  have e2 := lt_searchRight hs ((timeBarClock ts I)[i + 1]) j hj
  constructor
  · rintro ⟨_, h1, h2⟩
    constructor
    · by_contra hc
      have := e1.mpr (by omega); omega
    · exact e2.mp (by omega)
  · rintro ⟨h1, h2⟩
    refine ⟨hi, ?_, ?_⟩
    · by_contra hc
      have := e1.mp (by omega); omega
    · have := e2.mpr h2; omega

example : ([3, 12, 25] : List Int).Pairwise (· ≤ ·) ∧ timeBarIndexer [3, 12, 25] 10 = ([0, 10, 20, 30, 40], [-1, 0, 1, 2, 2]) := by decide +kernel

/-- **C02 (coverage).** Every trade later than the first clock tick is in exactly one bar. -/
theorem C02_timeBars_unique_bar (ts : List Int) (I : Int) (hI : 0 < I) (hs : ts.Pairwise (· ≤ ·))
    (j : Nat) (hj : j < ts.length) (c₀ : Int) (hc : (timeBarIndexer ts I).1.head? = some c₀)
    (hlt : c₀ < ts[j]) : ∃! i, InBar (timeBarIndexer ts I).2 i j := by
  have hne : ts ≠ [] := by rintro rfl; simp at hj
  have hC := C01_timeBars_clock ts I hI hne hs
  simp only at hC
  obtain ⟨hdvd, hstep, ⟨c0, hc0, hc0a, hc0b⟩, ⟨c1, hc1, hc1a, hc1b⟩, hlen⟩ := hC
  set clock := (timeBarIndexer ts I).1 with hclock
  have hform : ∀ (i : Nat) (h : i < clock.length), clock[i] = c₀ + i * I := by
    intro i
    induction i with
    | zero =>
      intro h
      rw [List.head?_eq_getElem?, List.getElem?_eq_getElem h] at hc
      simpa using hc
    | succ i ih =>
      intro h
      rw [hstep i h, ih (by omega)]; push_cast; ring
  have hlast : ts[j] ≤ ts.getLast hne := by
    rw [List.getLast_eq_getElem]
    exact sorted_get_le hs hj (by omega) (by omega)
  have hpos : 0 < clock.length := by
    rcases Nat.eq_zero_or_pos clock.length with h | h
    · rw [List.length_eq_zero_iff.mp h] at hc; simp at hc
    · exact h
  have hc1e : c1 = c₀ + ((clock.length - 1 : Nat) : Int) * I := by
    rw [List.getLast?_eq_getElem?, List.getElem?_eq_getElem (by omega)] at hc1
    rw [← hform _ (by omega)]
    simpa using hc1.symm
  -- the bar number
  set q := ((ts[j] - c₀ - 1) / I).toNat with hq
  have hq0 : 0 ≤ (ts[j] - c₀ - 1) / I := Int.ediv_nonneg (by omega) (le_of_lt hI)
  have hqi : (q : Int) = (ts[j] - c₀ - 1) / I := by omega
  have hlow : (q : Int) * I ≤ ts[j] - c₀ - 1 := by
    rw [hqi]; exact Int.ediv_mul_le _ (ne_of_gt hI)
  have hup : ts[j] - c₀ - 1 < (q : Int) * I + I := by
    have := Int.lt_ediv_add_one_mul_self (ts[j] - c₀ - 1) hI
    rw [← hqi] at this
    have h2 : ((q : Int) + 1) * I = q * I + I := by ring
    omega
  have hqlt : q + 1 < clock.length := by
    by_contra hcon
    have : ((clock.length - 1 : Nat) : Int) * I ≤ q * I :=
      Int.mul_le_mul_of_nonneg_right (by omega) (le_of_lt hI)
    omega
  refine ⟨q, ?_, ?_⟩
  · show InBar (timeBarIndexer ts I).2 q j
    rw [C02_timeBars_assignment ts I hs q j hqlt hj]
    rw [hform q (by omega), hform (q+1) hqlt]
    push_cast
    constructor
    · omega
    · have : ((q : Int) + 1) * I = q * I + I := by ring
      omega
  · intro i hin
    have hi : i + 1 < clock.length := by
      obtain ⟨h, _⟩ := hin; rw [hlen] at h; exact h
    rw [C02_timeBars_assignment ts I hs i j hi hj] at hin
    rw [hform i (by omega), hform (i+1) hi] at hin
    obtain ⟨h1, h2⟩ := hin
    push_cast at h2
    have h3 : ((i : Int) + 1) * I = i * I + I := by ring
    rcases lt_trichotomy i q with h | h | h
    · have : ((i : Int) + 1) * I ≤ q * I := Int.mul_le_mul_of_nonneg_right (by omega) (le_of_lt hI)
      omega
    · exact h
    · have : ((q : Int) + 1) * I ≤ i * I := Int.mul_le_mul_of_nonneg_right (by omega) (le_of_lt hI)
      have h4 : ((q : Int) + 1) * I = q * I + I := by ring
      omega

example : ([3, 12, 25] : List Int).Pairwise (· ≤ ·) ∧ (timeBarIndexer [3, 12, 25] 10).1.head? = some 0 := by decide +kernel

/-- **C02 (boundary).** A trade exactly on (or before) the first clock tick is in no bar. -/
theorem C02_timeBars_boundary_trade_dropped (ts : List Int) (I : Int) (hI : 0 < I)
    (hs : ts.Pairwise (· ≤ ·)) (j : Nat) (hj : j < ts.length) (c₀ : Int)
    (hc : (timeBarIndexer ts I).1.head? = some c₀) (heq : ts[j] ≤ c₀) :
    ∀ i, ¬ InBar (timeBarIndexer ts I).2 i j := by
  intro i hin
  have hne : ts ≠ [] := by rintro rfl; simp at hj
  have hC := C01_timeBars_clock ts I hI hne hs
  simp only at hC
  obtain ⟨hdvd, hstep, _, _, hlen⟩ := hC
  have hi : i + 1 < (timeBarIndexer ts I).1.length := by
    obtain ⟨h, _⟩ := hin; rw [hlen] at h; exact h
  rw [C02_timeBars_assignment ts I hs i j hi hj] at hin
  have hform : ∀ (k : Nat) (h : k < (timeBarIndexer ts I).1.length),
      c₀ ≤ (timeBarIndexer ts I).1[k] := by
    intro k
    induction k with
    | zero =>
      intro h
      rw [List.head?_eq_getElem?, List.getElem?_eq_getElem h] at hc
      simp only [Option.some.injEq] at hc
      omega
    | succ k ih =>
      intro h
      have h1 := hstep k h
      have := ih (by omega)
      omega
  have := hform i (by omega)
  omega

/- Non-vacuity: trades at 5, 10, 11, 30 with interval 10; trade 2 (time 11) is in bar 1 only. -/
example : InBar (timeBarIndexer [5, 10, 11, 30] 10).2 1 2 := ⟨by decide, by decide, by decide⟩
example : (timeBarIndexer [5, 10, 11, 30] 10).1.head? = some 0 := by decide
/- Non-vacuity of the boundary case: the first trade at exactly 10 falls in no bar. -/
example : (timeBarIndexer [10, 11, 30] 10) = ([10, 20, 30, 40], [0, 1, 2, 2]) := by decide

end FinML
