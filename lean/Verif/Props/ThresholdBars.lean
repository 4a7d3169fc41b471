/-
C03, C04, C05 and the indexer part of C09: tick, volume and dollar bars
(`finmlkit/bar/logic.py:54-149`).
-/
import Verif.Lemmas.Indexers

namespace FinML

variable {K : Type} [Field K] [LinearOrder K]

/-! ## C03: tick bars -/

/-- **C03.** With threshold `T ≥ 2` on `n ≥ 1` trades the close indices are `0` followed by
`T-1, 2T-1, 3T-1, …` (all that are `< n`). -/
theorem C03_tickBars_closed_form {α : Type} (ts : List α) (hne : ts ≠ []) (T : Nat) (hT : 2 ≤ T) :
    tickBarIndexer ts T = 0 :: (List.range (ts.length / T)).map (fun k => (k + 1) * T - 1) := by
  unfold tickBarIndexer
  have := tickLoop_closed T hT ts.tail 1 1 (by omega)
  simp only [Nat.cast_one] at this
  rw [this, List.length_tail]
  have h1 : 1 + (ts.length - 1) = ts.length := by
    have := List.length_pos_iff.mpr hne; omega
  rw [h1]
  congr 1
  apply List.map_congr_left
  intro k _
  have : T ≤ (k + 1) * T := Nat.le_mul_of_pos_left _ (by omega)
  omega

example : ([7, 7, 8, 9, 9] : List Nat) ≠ [] ∧ tickBarIndexer ([7, 7, 8, 9, 9] : List Nat) 2 = [0, 1, 3] := by decide +kernel

/-- **C03 (reading).** Every tick bar after the first has exactly `T` trades (close indices `T` apart),
the first ends at trade `T-1`, and fewer than `T` trades follow the last close. -/
theorem C03_tickBars_spacing {α : Type} (ts : List α) (hne : ts ≠ []) (T : Nat) (hT : 2 ≤ T) :
    let c := tickBarIndexer ts T
    c[0]? = some 0 ∧
    (∀ h : 1 < c.length, c[1] = T - 1) ∧
    (∀ (k : Nat) (h : k + 2 < c.length), c[k + 2] = c[k + 1] + T) ∧
    (∀ x ∈ c, x < ts.length) ∧
    c.Pairwise (· < ·) ∧
    ts.length - 1 - (c.getLastD 0) < T := by
  have hc := C03_tickBars_closed_form ts hne T hT
  have hpos := List.length_pos_iff.mpr hne
  simp only [hc]
  have hT1 : ∀ k, T ≤ (k + 1) * T := fun k => Nat.le_mul_of_pos_left _ (by omega)
  refine ⟨rfl, ?_, ?_, ?_, ?_, ?_⟩
  · intro h; simp
  · intro k h
    simp only [List.getElem_cons_succ, List.getElem_map, List.getElem_range]
    have e : (k + 1 + 1) * T = (k + 1) * T + T := by ring
    have := hT1 k
    rw [e]; omega
  · intro x hx
    rcases List.mem_cons.mp hx with rfl | hx
    · exact hpos
    · obtain ⟨k, hk, rfl⟩ := List.mem_map.mp hx
      rw [List.mem_range] at hk
      have h1 : (k + 1) * T ≤ ts.length / T * T := Nat.mul_le_mul_right _ (by omega)
      have h2 := Nat.div_mul_le_self ts.length T
      have := hT1 k
      omega
  · rw [← hc]
    unfold tickBarIndexer
    refine List.pairwise_cons.mpr ⟨?_, tickLoop_sorted _ _ _ _⟩
    intro x hx
    have := tickLoop_mem _ _ _ _ x hx; omega
  · rcases Nat.eq_zero_or_pos (ts.length / T) with h0 | h0
    · rw [h0]; simp
      have := (Nat.div_eq_zero_iff).mp h0
      omega
    · obtain ⟨m, hm⟩ := Nat.exists_eq_succ_of_ne_zero (Nat.pos_iff_ne_zero.mp h0)
      rw [hm]
      have : ((0 :: (List.range (m.succ)).map (fun k => (k + 1) * T - 1)).getLastD 0)
          = (m + 1) * T - 1 := by
        rw [List.range_succ, List.map_append]
        rw [List.getLastD_eq_getLast?, ← List.cons_append, List.map_singleton,
          List.getLast?_append_of_ne_nil _ (by simp)]
        simp
      rw [this]
      have h1 : ts.length % T < T := Nat.mod_lt _ (by omega)
      have h2 := Nat.div_add_mod ts.length T
      rw [hm] at h2
      have h3 : T * m.succ = (m + 1) * T := by rw [Nat.succ_eq_add_one]; ring
      rw [h3] at h2
      have := hT1 m
      omega

example : (tickBarIndexer (List.range 10) 3).length = 4 ∧ tickBarIndexer (List.range 10) 3 = [0, 2, 5, 8] := by decide +kernel

/-- With threshold at most one, every trade closes a bar. -/
theorem C03_tickBars_threshold_one {α : Type} (ts : List α) (hne : ts ≠ []) (T : Int) (hT : T ≤ 1) :
    tickBarIndexer ts T = List.range ts.length := by
  unfold tickBarIndexer
  rw [tickLoop_one T hT _ _ _ (by omega), List.length_tail, List.range_eq_range']
  have hpos := List.length_pos_iff.mpr hne
  conv_rhs => rw [show ts.length = (ts.length - 1) + 1 by omega, List.range'_succ]

example : tickBarIndexer ["a", "b", "c", "d", "e", "f", "g"] 3 = [0, 2, 5] := by decide

/-! ## C04: volume bars -/

/-- **C04.** The volume-bar closes are trade `0` followed by the successive first crossings of the
threshold: the first bar accumulates from trade `0` (and may close from trade `1` on), every later bar
accumulates from the trade after the previous close; no trade after the last close reaches the
threshold.  (`FirstCrossings` is defined in `Spec/Basic.lean`.) -/
theorem C04_volumeBars_first_crossings (v : List K) (hne : v ≠ []) (T : K) :
    ∃ cs, volumeBarIndexer v T = 0 :: cs ∧ FirstCrossings T v 0 1 cs := by
  refine ⟨_, rfl, ?_⟩
  rw [← List.drop_one]
  have hpos := List.length_pos_iff.mpr hne
  have h0 : v.headD 0 = rangeSum v 0 1 := by
    rw [rangeSum_succ v 0 0 (le_refl _) hpos, rangeSum_self, zero_add]
    cases v with
    | nil => exact absurd rfl hne
    | cons a l => rfl
  exact volumeLoop_firstCrossings T v 0 1 (by omega) _ h0 1 (le_refl _) (by intro j h1 h2; omega)

example : ([1, 2, 3, 4, 1] : List ℚ) ≠ [] ∧ volumeBarIndexer ([1, 2, 3, 4, 1] : List ℚ) 5 = [0, 2, 4] := by decide +kernel

/-- `FirstCrossings` determines the cut list. -/
theorem FirstCrossings_unique {T : K} {v : List K} {s lo : Nat} {c d : List Nat}
    (hc : FirstCrossings T v s lo c) (hd : FirstCrossings T v s lo d) : c = d := by
  induction c generalizing s lo d with
  | nil =>
    cases d with
    | nil => rfl
    | cons b d => exact absurd (hc b hd.1 hd.2.1) (not_lt.mpr hd.2.2.1)
  | cons a c ih =>
    cases d with
    | nil => exact absurd (hd a hc.1 hc.2.1) (not_lt.mpr hc.2.2.1)
    | cons b d =>
      obtain ⟨h1, h2, h3, h4, h5⟩ := hc
      obtain ⟨g1, g2, g3, g4, g5⟩ := hd
      have hab : a = b := by
        rcases lt_trichotomy a b with h | h | h
        · exact absurd (g4 a h1 h) (not_lt.mpr h3)
        · exact h
        · exact absurd (h4 b g1 h) (not_lt.mpr g3)
      subst hab
      rw [ih h5 g5]

/-- **C04 (index form).** Bar `k` of a volume-bar series (from the trade after close `k`, or from
trade 0 for the first bar, up to close `k+1`) holds at least the threshold, and strictly less without
its last trade (unless the bar would close before trade 1). -/
theorem C04_volumeBars_index_form (v : List K) (hne : v ≠ []) (T : K) (k : Nat)
    (hk : k + 1 < (volumeBarIndexer v T).length) :
    let c := volumeBarIndexer v T
    let start := if k = 0 then 0 else c[k] + 1
    c[k] < c[k + 1] ∧ c[k + 1] < v.length ∧
    T ≤ rangeSum v start (c[k + 1] + 1) ∧
    ∀ j, c[k] < j → j < c[k + 1] → rangeSum v start (j + 1) < T := by
  obtain ⟨cs, hcs, hF⟩ := C04_volumeBars_first_crossings v hne T
  have gen : ∀ (cs : List Nat) (s lo : Nat), FirstCrossings T v s lo cs →
      ∀ (k : Nat) (h : k < cs.length),
        let st := if k = 0 then s else cs[k - 1]'(by omega) + 1
        let l := if k = 0 then lo else cs[k - 1]'(by omega) + 1
        l ≤ cs[k] ∧ cs[k] < v.length ∧ T ≤ rangeSum v st (cs[k] + 1) ∧
        ∀ j, l ≤ j → j < cs[k] → rangeSum v st (j + 1) < T := by
    intro cs
    induction cs with
    | nil => intro s lo _ k h; simp at h
    | cons a cs ih =>
      intro s lo hF k h
      obtain ⟨h1, h2, h3, h4, h5⟩ := hF
      cases k with
      | zero => exact ⟨h1, h2, h3, h4⟩
      | succ k =>
        have := ih _ _ h5 k (by simpa using h)
        cases k with
        | zero => simpa using this
        | succ k => simpa using this
  simp only [hcs] at hk ⊢
  have hk' : k < cs.length := by simpa using hk
  have := gen cs 0 1 hF k hk'
  cases k with
  | zero =>
    simp at this ⊢
    obtain ⟨a, b, c, d⟩ := this
    exact ⟨by omega, b, c, fun j h1 h2 => d j (by omega) h2⟩
  | succ k =>
    simp at this ⊢
    obtain ⟨a, b, c, d⟩ := this
    exact ⟨by omega, b, c, fun j h1 h2 => d j (by omega) h2⟩

example : volumeBarIndexer ([1, 2, 3, 4, 1, 1, 5, 1] : List ℚ) 5 = [0, 2, 4, 6] := by decide +kernel
/- a large first trade cannot close a bar on its own -/
example : volumeBarIndexer ([9, 0, 3, 4] : List ℚ) 5 = [0, 1, 3] := by decide +kernel

/-! ## C05: dollar bars -/

/-- **C05.** Trade `j ≥ 1` closes a dollar bar iff the dollars traded up to and including `j`, minus the
threshold times the number of closes strictly before `j` (not counting the initial mark at trade 0),
reach the threshold. -/
theorem C05_dollarBars_closes [IsStrictOrderedRing K] (trades : List (K × K)) (hne : trades ≠ []) (T : K) :
    ∃ cs, dollarBarIndexer trades T = 0 :: cs ∧
      (∀ j, 1 ≤ j → j < trades.length →
        (j ∈ cs ↔ T ≤ rangeSum (trades.map (fun t => t.1 * t.2)) 0 (j + 1) -
          T * ((cs.countP (fun x => decide (x < j)) : Nat) : K))) ∧
      cs.Pairwise (· < ·) ∧ ∀ x ∈ cs, 1 ≤ x ∧ x < trades.length := by
  refine ⟨_, rfl, ?_, dollarLoop_sorted _ _ _ _, ?_⟩
  · rw [← List.drop_one]
    have hpos := List.length_pos_iff.mpr hne
    have := dollarLoop_char T trades 1 ((trades.headD (0, 0)).1 * (trades.headD (0, 0)).2) [] (by simp) (by
      rw [rangeSum_succ _ 0 0 (le_refl _) (by simpa using hpos), rangeSum_self]
      cases trades with
      | nil => exact absurd rfl hne
      | cons a l => simp)
    simpa using this
  · intro x hx
    have := dollarLoop_mem _ _ _ _ x hx
    have hpos := List.length_pos_iff.mpr hne
    rw [List.length_tail] at this; omega

example : ([(10, 1), (11, 2), (12, 1)] : List (ℚ × ℚ)) ≠ [] ∧ dollarBarIndexer ([(10, 1), (11, 2), (12, 1)] : List (ℚ × ℚ)) 20 = [0, 1, 2] := by
  decide +kernel

/-- **C05 (budget).** With non-negative dollar amounts, threshold times the number of bars never exceeds
the total dollars traded; this holds for every prefix, i.e. the carried remainder is never negative. -/
theorem C05_dollarBars_budget [IsStrictOrderedRing K] (trades : List (K × K)) (hne : trades ≠ []) (T : K)
    (hd : ∀ t ∈ trades, 0 ≤ t.1 * t.2) :
    T * (((dollarBarIndexer trades T).length - 1 : Nat) : K) ≤ (trades.map (fun t => t.1 * t.2)).sum := by
  cases trades with
  | nil => exact absurd rfl hne
  | cons a l =>
    have := dollarLoop_nonneg_carry T l 1 (a.1 * a.2) (hd a (by simp)) (fun t ht => hd t (by simp [ht]))
    simpa [dollarBarIndexer] using this

example : (∀ t ∈ ([(10, 1), (11, 2), (12, 1)] : List (ℚ × ℚ)), 0 ≤ t.1 * t.2) ∧
    (20 : ℚ) * 2 ≤ (([(10, 1), (11, 2), (12, 1)] : List (ℚ × ℚ)).map (fun t => t.1 * t.2)).sum := by decide +kernel

/-- The carried remainder is not bounded by the threshold: after one huge trade every following trade
closes a bar, however small, so a dollar bar need not itself contain the threshold amount. -/
theorem C05_dollarBars_small_bars_exist :
    ∃ (trades : List (ℚ × ℚ)) (T : ℚ), dollarBarIndexer trades T = [0, 1, 2, 3] ∧
      (trades.map (fun t => t.1 * t.2)) = [1, 100, 1, 1] ∧ T = 10 :=
  ⟨[(1, 1), (1, 100), (1, 1), (1, 1)], 10, by decide +kernel, by decide +kernel, rfl⟩

/-! ## C09 (indexers): no look-ahead -/

theorem filter_lt_prefix (c r : List Nat) (n : Nat) (hc : ∀ x ∈ c, x < n) (hr : ∀ x ∈ r, n ≤ x) :
    (c ++ r).filter (fun x => decide (x < n)) = c := by
  rw [List.filter_append, List.filter_eq_self.mpr (by simpa using hc),
    List.filter_eq_nil_iff.mpr (by simpa using hr), List.append_nil]

/-- **C09 (tick bars).** Appending trades never changes the closes already produced. -/
theorem C09_tickBars_no_lookahead {α : Type} (xs ys : List α) (hne : xs ≠ []) (T : Int) :
    (tickBarIndexer (xs ++ ys) T).filter (fun x => decide (x < xs.length)) = tickBarIndexer xs T := by
  cases xs with
  | nil => exact absurd rfl hne
  | cons a l =>
    unfold tickBarIndexer
    simp only [List.cons_append, List.tail_cons]
    obtain ⟨c, hc⟩ := tickLoop_append T l ys 1 1
    rw [hc, ← List.cons_append]
    apply filter_lt_prefix
    · intro x hx
      rcases List.mem_cons.mp hx with rfl | hx
      · simp
      · have := tickLoop_mem _ _ _ _ x hx; simp; omega
    · intro x hx; have := tickLoop_mem _ _ _ _ x hx; simp; omega

example : ([7, 7, 8] : List Nat) ≠ [] ∧ tickBarIndexer ([7, 7, 8] : List Nat) 2 = [0, 1] ∧ tickBarIndexer ([7, 7, 8] ++ [9, 9] : List Nat) 2 = [0, 1, 3] := by
  decide +kernel

/-- **C09 (volume bars).** -/
theorem C09_volumeBars_no_lookahead (xs ys : List K) (hne : xs ≠ []) (T : K) :
    (volumeBarIndexer (xs ++ ys) T).filter (fun x => decide (x < xs.length)) = volumeBarIndexer xs T := by
  cases xs with
  | nil => exact absurd rfl hne
  | cons a l =>
    unfold volumeBarIndexer
    simp only [List.cons_append, List.tail_cons, List.headD_cons]
    obtain ⟨c, hc⟩ := volumeLoop_append T l ys 1 a
    rw [hc, ← List.cons_append]
    apply filter_lt_prefix
    · intro x hx
      rcases List.mem_cons.mp hx with rfl | hx
      · simp
      · have := volumeLoop_mem _ _ _ _ x hx; simp; omega
    · intro x hx; have := volumeLoop_mem _ _ _ _ x hx; simp; omega

example : ([1, 2, 3] : List ℚ) ≠ [] ∧ volumeBarIndexer ([1, 2, 3] : List ℚ) 5 = [0, 2] ∧ volumeBarIndexer ([1, 2, 3] ++ [4, 1] : List ℚ) 5 = [0, 2, 4] := by
  decide +kernel

/-- **C09 (dollar bars).** -/
theorem C09_dollarBars_no_lookahead (xs ys : List (K × K)) (hne : xs ≠ []) (T : K) :
    (dollarBarIndexer (xs ++ ys) T).filter (fun x => decide (x < xs.length)) = dollarBarIndexer xs T := by
  cases xs with
  | nil => exact absurd rfl hne
  | cons a l =>
    unfold dollarBarIndexer
    simp only [List.cons_append, List.tail_cons, List.headD_cons]
    obtain ⟨c, hc⟩ := dollarLoop_append T l ys 1 (a.1 * a.2)
    rw [hc, ← List.cons_append]
    apply filter_lt_prefix
    · intro x hx
      rcases List.mem_cons.mp hx with rfl | hx
      · simp
      · have := dollarLoop_mem _ _ _ _ x hx; simp; omega
    · intro x hx; have := dollarLoop_mem _ _ _ _ x hx; simp; omega

example : (volumeBarIndexer (([1, 2, 3, 4, 1] : List ℚ) ++ [1, 5, 1]) 5).filter (fun x => decide (x < 5))
    = volumeBarIndexer ([1, 2, 3, 4, 1] : List ℚ) 5 := by decide +kernel

end FinML
