/-
C158: array accesses of the structural-break test.
-/
import Verif.Props.CheckedPrep
import Verif.Props.CusumTest

set_option linter.unusedSectionVars false

namespace FinML

variable {K : Type} [Field K] [LinearOrder K] [IsStrictOrderedRing K]

theorem foldlM_pure_of {β σ : Type} (f : σ → β → Option σ) (g : σ → β → σ) (l : List β) (h : ∀ s, ∀ b ∈ l, f s b = some (g s b)) (s : σ) :
    l.foldlM f s = some (l.foldl g s) := by
  induction l generalizing s with
  | nil => rfl
  | cons b l ih =>
    rw [List.foldlM_cons, h s b (by simp), List.foldl_cons]
    exact ih (fun s c hc => h s c (by simp [hc])) (g s b)

theorem sntStepChk_eq (lg sq : K → K) (y : List K) (t : Nat) (sigma : K) (s : Snt K) (n : Nat) (ht : t < y.length) (hn : n < y.length) :
    sntStepChk lg sq y t sigma s n = some (sntStep lg sq y t sigma s n) := by
  simp only [sntStepChk, sntStep, rd_getD y 0 t ht, rd_getD y 0 n hn, Option.bind_eq_bind, Option.bind_some]
  by_cases h : sigma * sq ((t - n : Nat) : K) ≤ 1 / 10 ^ 16
  · rw [if_pos h, if_pos h]
  · rw [if_neg h, if_neg h]

theorem compMaxSntChk_eq (lg sq : K → K) (y : List K) (t : Nat) (sigma : K) (ht : t < y.length) :
    compMaxSntChk lg sq y t sigma = some (compMaxSnt lg sq y t sigma) := by
  unfold compMaxSntChk compMaxSnt
  by_cases h : t < 1 ∨ sigma ≤ 0
  · rw [if_pos h, if_pos h]
  · rw [if_neg h, if_neg h]
    apply foldlM_pure_of
    intro s n hn
    rw [List.mem_map] at hn
    obtain ⟨m, hm, rfl⟩ := hn
    rw [List.mem_range] at hm
    exact sntStepChk_eq lg sq y t sigma s (m + 1) ht (by omega)

theorem cumSqDiffs_rd (y : List K) (k : Nat) (hk : k + 1 < y.length) : rd (cumSqDiffs y) (k : Int) = some (cumSqDiff y k) := by
  rw [rd_nat]
  simp [cumSqDiffs, tabulate, show k < y.length - 1 by omega]

/-- **C158**: from index 2 on the statistic reads inside its arrays and equals the model; index 1 divides by zero; index 0 reads entry `-1` of the
cumulated differences. -/
theorem C158_statistic (lg sq : K → K) (y : List K) (t : Nat) (ht : t < y.length) :
    sntAtChk lg sq y (t : Int) = if t = 0 then none else if t = 1 then some (.error "ZeroDivisionError") else some (.ok (sntAt lg sq y t)) := by
  unfold sntAtChk
  by_cases h0 : t = 0
  · subst h0; rw [if_pos rfl]; rfl
  rw [if_neg h0]
  obtain ⟨k, rfl⟩ : ∃ k, t = k + 1 := ⟨t - 1, by omega⟩
  rw [show (((k + 1 : Nat) : Int) - 1) = (k : Int) by omega, cumSqDiffs_rd y k ht]
  simp only [Option.bind_eq_bind, Option.bind_some]
  by_cases h1 : k = 0
  · subst h1; rfl
  · rw [if_neg (by omega), if_neg (by omega), Int.toNat_natCast, compMaxSntChk_eq lg sq y _ _ ht]
    simp [sntAt]

example : sntAtChk (fun x : ℚ => x) (fun x => x) [1, 2, 4, 3] 0 = none ∧
    sntAtChk (fun x : ℚ => x) (fun x => x) [1, 2, 4, 3] 1 = some (.error "ZeroDivisionError") := by
  exact ⟨(C158_statistic _ _ _ 0 (by decide)).trans rfl, (C158_statistic _ _ _ 1 (by decide)).trans rfl⟩

/-- The output of the developing test after the iterations before `a`. -/
def devOut (lg sq : K → K) (y : List K) (warmup a : Nat) : List (Option (Snt K)) :=
  tabulate y.length (fun t => if t < warmup ∨ a ≤ t then none else some (sntAt lg sq y t))

theorem devLoop_fill (lg sq : K → K) (y : List K) (warmup : Nat) (hw : 2 ≤ warmup) (k a : Nat) (ha : warmup ≤ a) (hk : a + k = y.length) :
    devLoopChk lg sq y (List.range' a k) (devOut lg sq y warmup a) = some (.ok (devOut lg sq y warmup y.length)) := by
  induction k generalizing a with
  | zero => simp only [List.range'_zero, devLoopChk]; rw [show a = y.length by omega]
  | succ k ih =>
    rw [List.range'_succ]
    have hs := C158_statistic lg sq y a (by omega)
    rw [if_neg (by omega), if_neg (by omega)] at hs
    have hwr : wr (devOut lg sq y warmup a) (a : Int) (some (sntAt lg sq y a)) = some (devOut lg sq y warmup (a + 1)) := by
      rw [wr_nat _ _ _ (by simp [devOut, tabulate]; omega)]
      congr 1
      apply List.ext_getElem?
      intro j
      rw [List.getElem?_set]
      by_cases hj : j < y.length
      · by_cases h : a = j
        · subst h
          simp [devOut, tabulate, hj, show ¬ a < warmup by omega]
        · rw [if_neg h]
          simp only [devOut, tabulate, List.getElem?_map, List.getElem?_range hj, Option.map_some]
          congr 1
          by_cases h' : j < warmup ∨ a ≤ j
          · rw [if_pos h', if_pos (by omega)]
          · rw [if_neg h', if_neg (by omega)]
      · rw [if_neg (by omega), List.getElem?_eq_none (by simp [devOut, tabulate]; omega), List.getElem?_eq_none (by simp [devOut, tabulate]; omega)]
    simp only [devLoopChk, hs, hwr, Option.bind_eq_bind, Option.bind_some]
    exact ih (a + 1) (by omega) (by omega)

/-- **C158**: with a warm-up of at least one observation the developing test stays inside its arrays and returns what the model returns. -/
theorem C158_developing (lg sq : K → K) (prices : List K) (warmup : Nat) (hw : 1 ≤ warmup) :
    cusumDevelopingChk lg sq prices warmup = some (cusumDeveloping lg sq prices warmup) := by
  unfold cusumDevelopingChk cusumDeveloping
  by_cases h : warmup ≤ 1 ∧ 1 < prices.length
  · rw [if_pos h]
    obtain ⟨k, hk⟩ : ∃ k, prices.length - warmup = k + 1 := ⟨prices.length - warmup - 1, by omega⟩
    have hw1 : warmup = 1 := by omega
    subst hw1
    rw [hk, List.range'_succ]
    have hs := C158_statistic lg sq (prices.map lg) 1 (by simp; omega)
    simp only [devLoopChk, hs, Option.bind_eq_bind]
    rfl
  · rw [if_neg h]
    have hz : List.replicate prices.length none = devOut lg sq (prices.map lg) warmup warmup := by
      apply List.ext_getElem?
      intro j
      by_cases hj : j < prices.length
      · simp only [List.getElem?_replicate, if_pos hj, devOut, tabulate, List.length_map, List.getElem?_map, List.getElem?_range hj, Option.map_some]
        rw [if_pos (by omega)]
      · rw [List.getElem?_eq_none (by simp; omega), List.getElem?_eq_none (by simp [devOut, tabulate]; omega)]
    have hfin : devOut lg sq (prices.map lg) warmup prices.length =
        tabulate prices.length (fun t => if t < warmup then none else some (sntAt lg sq (prices.map lg) t)) := by
      unfold devOut tabulate
      rw [List.length_map]
      apply List.map_congr_left
      intro t ht
      rw [List.mem_range] at ht
      by_cases h' : t < warmup
      · rw [if_pos (by omega), if_pos h']
      · rw [if_neg (by omega), if_neg h']
    by_cases hlt : warmup ≤ prices.length ∧ 2 ≤ warmup
    · have hf := devLoop_fill lg sq (prices.map lg) warmup hlt.2 (prices.length - warmup) warmup le_rfl (by simp; omega)
      rw [List.length_map] at hf
      rw [hz, hf, hfin]
    · rw [show prices.length - warmup = 0 by omega, hz]
      simp only [List.range'_zero, devLoopChk]
      rw [← hfin]
      congr 2
      unfold devOut tabulate
      apply List.map_congr_left
      intro t ht
      rw [List.mem_range, List.length_map] at ht
      rw [if_pos (by omega), if_pos (by omega)]

/-- **C158**: without a warm-up the first iteration of the developing test reads entry `-1`. -/
theorem C158_developing_no_warmup (lg sq : K → K) (prices : List K) (hne : prices ≠ []) : cusumDevelopingChk lg sq prices 0 = none := by
  have hn : 0 < prices.length := List.length_pos_iff.mpr hne
  unfold cusumDevelopingChk
  obtain ⟨k, hk⟩ : ∃ k, prices.length - 0 = k + 1 := ⟨prices.length - 1, by omega⟩
  rw [hk, List.range'_succ]
  have hs := C158_statistic lg sq (prices.map lg) 0 (by simp; omega)
  simp only [devLoopChk, hs]
  rfl

example : ∃ out, cusumDevelopingChk (fun x : ℚ => x) (fun x => x) [1, 3, 2, 5, 1, 4] 2 = some (.ok out) ∧ out.length = 6 ∧ out[1]? = some none := by
  rw [C158_developing _ _ _ _ (by decide)]
  exact ⟨_, rfl, by decide +kernel, by decide +kernel⟩

/-- **C158**: the test of the last observation stays inside its arrays exactly from two prices on, divides by zero at two, and equals the model from three on. -/
theorem C158_last (lg sq : K → K) (prices : List K) :
    cusumLastChk lg sq prices = if prices.length < 2 then none else if prices.length = 2 then some (.error "ZeroDivisionError")
      else some (.ok (cusumLast lg sq prices)) := by
  unfold cusumLastChk
  by_cases h0 : prices.length = 0
  · rw [List.length_eq_zero_iff] at h0
    subst h0; rfl
  · rw [show ((prices.length : Int) - 1) = ((prices.length - 1 : Nat) : Int) by omega, C158_statistic lg sq _ _ (by simp; omega)]
    by_cases h1 : prices.length = 1
    · rw [if_pos (by omega), if_pos (by omega)]
    · rw [if_neg (by omega), if_neg (show ¬ prices.length < 2 by omega)]
      by_cases h2 : prices.length = 2
      · rw [if_pos (by omega), if_pos h2]
      · rw [if_neg (by omega), if_neg h2]; rfl

/-- **C158**: every window of the rolling test holds at least three prices, so its calls of the test of the last observation are safe. -/
theorem C158_rolling_windows (lg sq : K → K) (prices : List K) (window warmup c : Nat) (hc : effWindow window warmup < c) (hn : c < prices.length) :
    cusumLastChk lg sq ((prices.take (c + 1)).drop (c - effWindow window warmup)) =
      some (.ok (cusumLast lg sq ((prices.take (c + 1)).drop (c - effWindow window warmup)))) := by
  have hw : 2 ≤ effWindow window warmup := by rw [effWindow_eq]; omega
  have hl : ((prices.take (c + 1)).drop (c - effWindow window warmup)).length = effWindow window warmup + 1 := by simp; omega
  rw [C158_last, if_neg (by omega), if_neg (by omega)]

example : effWindow 2 0 < 3 ∧ 3 < ([1, 3, 2, 5, 1, 4] : List ℚ).length := by decide

end FinML
