/-
C87: searches for a point in time that go through float64 (`label/tbm.py:94-96`, `feature/core/utils.py:42-46`).
-/
import Verif.Props.TimeBars64

set_option linter.unusedSectionVars false

namespace FinML

/-- Timestamps between 2006 and 2043, where float64 numbers are 256 apart. -/
def InEra (t : Int) : Prop := 2 ^ 60 ≤ t ∧ t < 2 ^ 61

theorem f64_era (t : Int) (h : InEra t) : f64 (t : ℚ) = (rint ((t : ℚ) / 256) : ℚ) * 256 := by
  have h1 : (2 : ℚ) ^ (60 : Int) ≤ t := by exact_mod_cast h.1
  have h2 : (t : ℚ) < 2 ^ ((60 : Int) + 1) := by
    have := h.2
    norm_num at this ⊢
    exact_mod_cast this
  unfold f64
  rw [rndBits_binade 53 _ 60 h1 h2]
  unfold rndAt
  norm_num

/-- Rounding commutes with adding whole seconds. -/
theorem f64_add_secs (t n : Int) (h1 : InEra t) (h2 : InEra (t + n * 1000000000)) :
    f64 (t : ℚ) + ((n * 1000000000 : Int) : ℚ) = f64 ((t + n * 1000000000 : Int) : ℚ) := by
  rw [f64_era t h1, f64_era _ h2]
  have e : ((t + n * 1000000000 : Int) : ℚ) / 256 = (t : ℚ) / 256 + 2 * ((n * 1953125 : Int) : ℚ) := by
    push_cast; ring
  rw [e, rint_add_even]
  push_cast
  ring

theorem f64_near_era (t : Int) (h : InEra t) : (t : ℚ) - 128 ≤ f64 (t : ℚ) ∧ f64 (t : ℚ) ≤ t + 128 := by
  have := f64_near_ts (t : ℚ) (by
    have : 0 ≤ t := by have := h.1; omega
    exact_mod_cast this) (by exact_mod_cast h.2)
  rw [abs_le] at this
  constructor <;> linarith [this.1, this.2]

/-- On microsecond timestamps rounding keeps the strict order. -/
theorem f64_le_iff (a b : Int) (ha : InEra a) (hb : InEra b) (da : 1000 ∣ a) (db : 1000 ∣ b) :
    f64 (a : ℚ) ≤ f64 (b : ℚ) ↔ a ≤ b := by
  constructor
  · intro h
    by_contra hc
    obtain ⟨x, rfl⟩ := da
    obtain ⟨y, rfl⟩ := db
    have hgap : 1000 * y + 1000 ≤ 1000 * x := by omega
    have hq : ((1000 * y : Int) : ℚ) + 1000 ≤ ((1000 * x : Int) : ℚ) := by exact_mod_cast hgap
    have := (f64_near_era _ ha).1
    have := (f64_near_era _ hb).2
    linarith
  · intro h
    exact f64_mono (by exact_mod_cast h)

theorem f64_window (n : Int) (hn : 0 ≤ n) (h : n * 1000000000 ≤ 2 ^ 61) : f64 ((n : ℚ) * 1000000000) = ((n * 1000000000 : Int) : ℚ) := by
  have := f64_secs 1 n (by norm_num) hn (by omega)
  rw [one_mul] at this
  rw [← this]
  push_cast
  rfl

theorem takeWhile_congr_mem {α : Type} (p q : α → Bool) (l : List α) (h : ∀ x ∈ l, p x = q x) : l.takeWhile p = l.takeWhile q := by
  induction l with
  | nil => rfl
  | cons a l ih =>
    rw [List.takeWhile_cons, List.takeWhile_cons, h a (by simp), ih (fun x hx => h x (by simp [hx]))]

theorem searchRight64_eq (ts : List Int) (v : Int) (hts : ∀ t ∈ ts, InEra t ∧ 1000 ∣ t) (hv : InEra v) (dv : 1000 ∣ v) :
    searchRight64 ts (f64 (v : ℚ)) = searchRight ts v := by
  unfold searchRight64 searchRight
  rw [takeWhile_congr_mem]
  intro t ht
  have := f64_le_iff t v (hts t ht).1 hv (hts t ht).2 dv
  simp only [this]

theorem searchLeft64_eq (ts : List Int) (v : Int) (hts : ∀ t ∈ ts, InEra t ∧ 1000 ∣ t) (hv : InEra v) (dv : 1000 ∣ v) :
    searchLeft64 ts (f64 (v : ℚ)) = searchLeft ts v := by
  unfold searchLeft64 searchLeft
  rw [takeWhile_congr_mem]
  intro t ht
  have := f64_le_iff v t hv (hts t ht).1 dv (hts t ht).2
  have h2 : f64 (t : ℚ) < f64 (v : ℚ) ↔ t < v := by
    rw [← not_le, ← not_le, this]
  simp only [h2]

theorem secs_dvd (t n : Int) (d : 1000 ∣ t) : 1000 ∣ t + n * 1000000000 :=
  Dvd.dvd.add d ⟨n * 1000000, by ring⟩

/-- **C87.** With microsecond timestamps and a vertical barrier of whole seconds, the barrier index computed in float64 is the
last bar at or before `t0 + barrier`. -/
theorem C87_vertical (ts : List Int) (t0 n : Int) (hn : 0 ≤ n) (hts : ∀ t ∈ ts, InEra t ∧ 1000 ∣ t) (h0 : InEra t0)
    (d0 : 1000 ∣ t0) (h1 : InEra (t0 + n * 1000000000)) :
    verticalIdx64 ts t0 n = (searchRight ts (t0 + n * 1000000000) : Int) - 1 := by
  unfold verticalIdx64
  have hb : n * 1000000000 ≤ 2 ^ 61 := by have := h1.2; have := h0.1; omega
  rw [f64_window n hn hb, f64_add_secs t0 n h0 h1, f64_idem, searchRight64_eq ts _ hts h1 (secs_dvd t0 n d0)]

example : (∀ t ∈ ([1700000000000000000, 1700000003000000000] : List Int), InEra t ∧ 1000 ∣ t) ∧ InEra (1700000000000000000 + 3 * 1000000000) ∧
    verticalIdx64 [1700000000000000000, 1700000003000000000] 1700000000000000000 3 = 1 := by
  unfold InEra
  decide +kernel

/-- In terms of bars: bar `j` is at or before the barrier index exactly when its time is at most `t0 + barrier`. -/
theorem C87_vertical_spec (ts : List Int) (t0 n : Int) (hn : 0 ≤ n) (hs : ts.Pairwise (· ≤ ·))
    (hts : ∀ t ∈ ts, InEra t ∧ 1000 ∣ t) (h0 : InEra t0) (d0 : 1000 ∣ t0) (h1 : InEra (t0 + n * 1000000000)) (j : Nat)
    (hj : j < ts.length) : (j : Int) ≤ verticalIdx64 ts t0 n ↔ ts[j] ≤ t0 + n * 1000000000 := by
  rw [C87_vertical ts t0 n hn hts h0 d0 h1, ← lt_searchRight hs _ j hj]
  omega

example : ([1700000000000000000, 1700000003000000000, 1700000003000001000] : List Int).Pairwise (· ≤ ·) ∧
    verticalIdx64 [1700000000000000000, 1700000003000000000, 1700000003000001000] 1700000000000000000 3 = 1 := by decide +kernel

/-- **C87.** Likewise the lagged index of `comp_lagged_returns`: the last bar at or before `t - window`. -/
theorem C87_lag_spec (ts : List Int) (t n : Int) (hn : 0 ≤ n) (hs : ts.Pairwise (· ≤ ·))
    (hts : ∀ t ∈ ts, InEra t ∧ 1000 ∣ t) (h0 : InEra t) (d0 : 1000 ∣ t) (h1 : InEra (t - n * 1000000000)) (j : Nat)
    (hj : j < ts.length) : (j : Int) ≤ lagIdx64 ts t n ↔ ts[j] ≤ t - n * 1000000000 := by
  have e : t - n * 1000000000 = t + (-n) * 1000000000 := by ring
  rw [e] at h1 ⊢
  have hb : n * 1000000000 ≤ 2 ^ 61 := by have := h1.1; have := h0.2; omega
  unfold lagIdx64
  have e2 : f64 (t : ℚ) - f64 ((n : ℚ) * 1000000000) = f64 (t : ℚ) + (((-n) * 1000000000 : Int) : ℚ) := by
    rw [f64_window n hn hb]; push_cast; ring
  rw [e2, f64_add_secs t (-n) h0 h1, f64_idem, searchRight64_eq ts _ hts h1 (secs_dvd t (-n) d0), ← lt_searchRight hs _ j hj]
  omega

example : InEra (1700000003000000000 - 3 * 1000000000) ∧ lagIdx64 [1700000000000000000, 1700000003000000000] 1700000003000000000 3 = 0 := by
  unfold InEra
  decide +kernel

/-- The first bar with a return is the first bar at least one window after the first bar. -/
theorem C87_lag_start (ts : List Int) (n : Int) (hn : 0 ≤ n) (hts : ∀ t ∈ ts, InEra t ∧ 1000 ∣ t) (h0 : InEra (ts.headD 0))
    (d0 : 1000 ∣ ts.headD 0) (h1 : InEra (ts.headD 0 + n * 1000000000)) :
    lagStart64 ts n = searchLeft ts (ts.headD 0 + n * 1000000000) := by
  unfold lagStart64
  have hb : n * 1000000000 ≤ 2 ^ 61 := by have := h1.2; have := h0.1; omega
  rw [f64_window n hn hb, f64_add_secs _ n h0 h1, f64_idem, searchLeft64_eq ts _ hts h1 (secs_dvd _ n d0)]

example : lagStart64 [1700000000000000000, 1700000003000000000, 1700000004000000000] 3 = 1 := by decide +kernel

theorem le_searchRight64 (ts : List Int) (v : ℚ) (hs : ts.Pairwise (· ≤ ·)) (j : Nat) (hj : j < ts.length) :
    j < searchRight64 ts v ↔ f64 (ts[j] : ℚ) ≤ v := by
  unfold searchRight64
  induction ts generalizing j with
  | nil => simp at hj
  | cons a l ih =>
    rw [List.pairwise_cons] at hs
    rw [List.takeWhile_cons]
    by_cases h : f64 (a : ℚ) ≤ v
    · rw [if_pos (by simpa using h), List.length_cons]
      cases j with
      | zero => simp [h]
      | succ j =>
        rw [Nat.add_lt_add_iff_right, ih hs.2 j (by simpa using hj)]
        rfl
    · rw [if_neg (by simpa using h)]
      constructor
      · intro h'; simp at h'
      · intro h'
        exfalso
        apply h
        refine le_trans ?_ h'
        apply f64_mono
        cases j with
        | zero => exact le_rfl
        | succ j =>
          have := hs.1 (l[j]'(by simpa using hj)) (List.getElem_mem _)
          have h2 : (a :: l)[j + 1] = l[j]'(by simpa using hj) := rfl
          rw [h2]
          exact_mod_cast this

/-- **C87.** The documented window of one microsecond gives the previous bar when bars are at least two microseconds apart
(`w` is any window whose length in nanoseconds rounds to 900…1100). -/
theorem C87_one_sample_lag (ts : List Int) (w : ℚ) (hw1 : 900 ≤ f64 (w * 1000000000)) (hw2 : f64 (w * 1000000000) ≤ 1100)
    (hs : ts.Pairwise (fun a b => a + 2000 ≤ b)) (hts : ∀ t ∈ ts, InEra t) (i : Nat) (hi : i < ts.length)
    (h1 : 2 ^ 60 + 5000 ≤ ts[i]) : lagIdx64 ts ts[i] w = (i : Int) - 1 := by
  have hs' : ts.Pairwise (· ≤ ·) := hs.imp (fun h => by omega)
  have hE := hts _ (List.getElem_mem hi)
  have hn := f64_near_era _ hE
  unfold lagIdx64
  generalize f64 (w * 1000000000) = W at *
  -- the target
  have hx0 : (0 : ℚ) ≤ f64 (ts[i] : ℚ) - W := by
    have : (2 ^ 60 + 5000 : ℚ) ≤ ts[i] := by exact_mod_cast h1
    linarith
  have hx1 : f64 (ts[i] : ℚ) - W < 2 ^ 61 := by
    have : (ts[i] : ℚ) < 2 ^ 61 := by exact_mod_cast hE.2
    linarith
  have ht := f64_near_ts _ hx0 hx1
  rw [abs_le] at ht
  generalize f64 (f64 (ts[i] : ℚ) - W) = v at *
  have hup : ¬ (i < searchRight64 ts v) := by
    rw [le_searchRight64 ts v hs' i hi, not_le]
    linarith
  have hlow : ∀ j (hj : j < i), j < searchRight64 ts v := by
    intro j hj
    rw [le_searchRight64 ts v hs' j (by omega)]
    have hgap : ts[j] + 2000 ≤ ts[i] := List.pairwise_iff_getElem.mp hs j i (by omega) hi hj
    have hq : (ts[j] : ℚ) + 2000 ≤ ts[i] := by exact_mod_cast hgap
    have := (f64_near_era _ (hts _ (List.getElem_mem (by omega : j < ts.length)))).2
    linarith
  have : searchRight64 ts v = i := by
    apply le_antisymm (by omega)
    by_contra hc
    have := hlow (searchRight64 ts v) (by omega)
    omega
  rw [this]

example : 900 ≤ f64 (1 / 1000000 * 1000000000) ∧ f64 (1 / 1000000 * 1000000000) ≤ 1100 ∧
    ([1700000000000000000, 1700000000000002000] : List Int).Pairwise (fun a b => a + 2000 ≤ b) ∧
    lagIdx64 [1700000000000000000, 1700000000000002000] 1700000000000002000 (1 / 1000000) = 0 := by decide +kernel

/-- Violation: a bar exactly at the vertical barrier is missed with a barrier of half a second on millisecond timestamps
(and the event has no bar at all). -/
theorem C87_barrier_bar_missed :
    verticalIdx64 [1700000040002000000, 1700000040502000000] 1700000040002000000 (1 / 2) = 0 ∧
    ((1700000040002000000 : Int) + 500000000 = 1700000040502000000) := by
  refine ⟨by decide +kernel, by norm_num⟩

/-- Violation: with bars one microsecond apart the window of one microsecond may give the bar before the previous one. -/
theorem C87_two_sample_lag :
    lagIdx64 [1700000040000004000, 1700000040000005000, 1700000040000006000] 1700000040000006000 (1 / 1000000) = 0 := by
  decide +kernel

/-- Violation: windows of at most 100 ns never find an earlier bar, however far apart the bars are: the index found is that of
the bar itself or later, which the code reports as missing. -/
theorem C87_tiny_window_missing (ts : List Int) (w : ℚ) (hw0 : 0 ≤ f64 (w * 1000000000)) (hw : f64 (w * 1000000000) ≤ 100)
    (hs : ts.Pairwise (· ≤ ·)) (i : Nat) (hi : i < ts.length) (h1 : 2 ^ 60 + 512 ≤ ts[i]) (h2 : ts[i] + 512 < 2 ^ 61) :
    (i : Int) ≤ lagIdx64 ts ts[i] w := by
  have hE : InEra ts[i] := ⟨by omega, by omega⟩
  unfold lagIdx64
  generalize f64 (w * 1000000000) = W at *
  have hr := f64_era _ hE
  have hv : f64 (f64 (ts[i] : ℚ) - W) = f64 (ts[i] : ℚ) := by
    have hn := f64_near_era _ hE
    have l1 : (2 ^ 60 + 512 : ℚ) ≤ ts[i] := by exact_mod_cast h1
    have l2 : (ts[i] : ℚ) + 512 < 2 ^ 61 := by exact_mod_cast h2
    have b1 : (2 : ℚ) ^ (60 : Int) ≤ f64 (ts[i] : ℚ) - W := by
      norm_num at l1 ⊢; linarith
    have b2 : f64 (ts[i] : ℚ) - W < 2 ^ ((60 : Int) + 1) := by
      norm_num at l2 ⊢; linarith
    have : f64 (f64 (ts[i] : ℚ) - W) = (rint ((f64 (ts[i] : ℚ) - W) / 256) : ℚ) * 256 := by
      conv_lhs => unfold f64
      have b1' := b1
      have b2' := b2
      unfold f64 at b1' b2'
      rw [rndBits_binade 53 _ 60 b1' b2']
      unfold rndAt f64
      norm_num
    rw [this, hr]
    congr 2
    generalize rint ((ts[i] : ℚ) / 256) = m
    have hb := rint_bounds (((m : ℚ) * 256 - W) / 256)
    have e : ((m : ℚ) * 256 - W) / 256 = m - W / 256 := by ring
    rw [e] at hb ⊢
    have c1 : (m : ℚ) - 1 < rint ((m : ℚ) - W / 256) := by linarith [hb.1]
    have c2 : (rint ((m : ℚ) - W / 256) : ℚ) < m + 1 := by linarith [hb.2]
    have c1' : m - 1 < rint ((m : ℚ) - W / 256) := by exact_mod_cast c1
    have c2' : rint ((m : ℚ) - W / 256) < m + 1 := by exact_mod_cast c2
    have : rint ((m : ℚ) - W / 256) = m := by omega
    exact_mod_cast this
  rw [hv]
  have := (le_searchRight64 ts (f64 (ts[i] : ℚ)) hs i hi).mpr le_rfl
  omega

/-! ### Example -/

/-- Non-vacuity: millisecond bars in November 2023, a barrier of two seconds, and a lag of one second. -/
example : InEra 1700000040002000000 ∧ (1000 : Int) ∣ 1700000040002000000 ∧ InEra (1700000040002000000 + 2 * 1000000000) ∧
    verticalIdx64 [1700000040002000000, 1700000042002000000, 1700000042003000000] 1700000040002000000 2 = 1 ∧
    lagIdx64 [1700000040002000000, 1700000042002000000, 1700000042003000000] 1700000042003000000 1 = 0 ∧
    f64 (1 / 1000000 * 1000000000) = 1000 := by
  refine ⟨⟨by norm_num, by norm_num⟩, by decide, ⟨by norm_num, by norm_num⟩, by decide +kernel, by decide +kernel, by decide +kernel⟩

end FinML
