/-
C155, second part: array accesses of the bar indexers.
-/
import Verif.Props.Checked

set_option linter.unusedSectionVars false

namespace FinML

variable {K : Type} [Field K] [LinearOrder K] [IsStrictOrderedRing K]

theorem rd_nat {α : Type} (xs : List α) (i : Nat) : rd xs (i : Int) = xs[i]? := by
  simp [rd, show ¬ ((i : Int) < 0) by omega]

theorem rd_pred {α : Type} (xs : List α) (i : Nat) : rd xs (((i + 1 : Nat) : Int) - 1) = xs[i]? := by
  rw [show (((i + 1 : Nat) : Int) - 1) = (i : Int) by omega, rd_nat]

theorem rd_succ {α : Type} (xs : List α) (i : Nat) : rd xs ((i : Int) + 1) = xs[i + 1]? := by
  rw [show ((i : Int) + 1) = ((i + 1 : Nat) : Int) by omega, rd_nat]

/-! ## Volume and dollar bars -/

theorem volumeLoopChk_eq (threshold : K) (pre rest : List K) (cum : K) (out : List Nat) :
    volumeLoopChk (pre ++ rest) threshold (List.range' pre.length rest.length) cum out =
      some (out ++ volumeLoop threshold pre.length cum rest) := by
  induction rest generalizing pre cum out with
  | nil => simp [volumeLoopChk, volumeLoop]
  | cons v rest ih =>
    rw [List.length_cons, List.range'_succ]
    simp only [volumeLoopChk, rd_nat, volumeLoop]
    have h : (pre ++ v :: rest)[pre.length]? = some v := by simp
    have ih' := fun c o => ih (pre ++ [v]) c o
    simp only [List.append_assoc, List.singleton_append, List.length_append, List.length_singleton] at ih'
    simp only [h]
    by_cases hc : cum + v ≥ threshold
    · simp only [hc, if_true, ih']
      simp
    · simp only [hc, if_false, ih']

/-- Volume bars: the run is inside the array exactly when there is a trade, and gives the model's indices. -/
theorem C155_volume_bars (volumes : List K) (threshold : K) :
    ((volumeBarIndexerChk volumes threshold).isSome ↔ volumes ≠ []) ∧
    (volumes ≠ [] → volumeBarIndexerChk volumes threshold = some (volumeBarIndexer volumes threshold)) := by
  cases volumes with
  | nil => simp [volumeBarIndexerChk, rd]
  | cons v rest =>
    have h := volumeLoopChk_eq threshold [v] rest v [0]
    simp only [List.singleton_append, List.length_singleton] at h
    have e : volumeBarIndexerChk (v :: rest) threshold = some (volumeBarIndexer (v :: rest) threshold) := by
      simp [volumeBarIndexerChk, rd, h, volumeBarIndexer]
    exact ⟨by simp [e], fun _ => e⟩

example : volumeBarIndexerChk (K := ℚ) [1, 2, 3] 3 = some [0, 1, 2] ∧ volumeBarIndexerChk (K := ℚ) [] 3 = none := by decide +kernel

theorem dollarLoopChk_eq (threshold : K) (pre rest : List (K × K)) (extra : List K) (cum : K) (out : List Nat) :
    dollarLoopChk ((pre ++ rest).map Prod.fst) ((pre ++ rest).map Prod.snd ++ extra) threshold (List.range' pre.length rest.length) cum out =
      some (out ++ dollarLoop threshold pre.length cum rest) := by
  induction rest generalizing pre cum out with
  | nil => simp [dollarLoopChk, dollarLoop]
  | cons t rest ih =>
    obtain ⟨p, v⟩ := t
    rw [List.length_cons, List.range'_succ]
    simp only [dollarLoopChk, rd_nat, dollarLoop]
    have h1 : ((pre ++ (p, v) :: rest).map Prod.fst)[pre.length]? = some p := by simp
    have h2 : ((pre ++ (p, v) :: rest).map Prod.snd ++ extra)[pre.length]? = some v := by
      rw [List.getElem?_append_left (by simp)]
      simp
    have ih' := fun c o => ih (pre ++ [(p, v)]) c o
    simp only [List.append_assoc, List.singleton_append, List.length_append, List.length_singleton] at ih'
    simp only [h1, h2]
    by_cases hc : cum + p * v ≥ threshold
    · simp only [hc, if_true, ih']
      simp
    · simp only [hc, if_false, ih']

/-- Dollar bars: `n` is the number of prices and the volumes are not compared with it.  With at least as many volumes as prices, and a price, the run
stays inside the arrays and gives the model's indices; with fewer volumes than prices it leaves them. -/
theorem C155_dollar_bars (trades : List (K × K)) (extra : List K) (threshold : K) (h : trades ≠ []) :
    dollarBarIndexerChk (trades.map Prod.fst) (trades.map Prod.snd ++ extra) threshold = some (dollarBarIndexer trades threshold) := by
  cases trades with
  | nil => exact absurd rfl h
  | cons t rest =>
    have h := dollarLoopChk_eq threshold [t] rest extra (t.1 * t.2) [0]
    simp only [List.length_singleton, List.map_cons, List.cons_append, List.nil_append] at h
    simp [dollarBarIndexerChk, rd, h, dollarBarIndexer]

theorem dollarLoopChk_short (prices volumes : List K) (threshold : K) (is : List Nat) (cum : K) (out : List Nat)
    (h : ∃ i ∈ is, volumes.length ≤ i) : dollarLoopChk prices volumes threshold is cum out = none := by
  induction is generalizing cum out with
  | nil => obtain ⟨i, hi, _⟩ := h; simp at hi
  | cons j is ih =>
    unfold dollarLoopChk
    by_cases hj : volumes.length ≤ j
    · rw [rd_none volumes (show (j : Int) < 0 ∨ (volumes.length : Int) ≤ (j : Int) by omega)]
      cases rd prices (j : Int) <;> rfl
    · obtain ⟨i, hi, hl⟩ := h
      have hmem : i ∈ is := by
        rcases List.mem_cons.mp hi with rfl | h
        · exact absurd hl hj
        · exact h
      cases rd prices (j : Int) with
      | none => rfl
      | some p =>
        cases rd volumes (j : Int) with
        | none => rfl
        | some v =>
          simp only []
          split <;> exact ih _ _ ⟨i, hmem, hl⟩

/-- Fewer volumes than prices: nothing is raised, and the volumes are read beyond their end. -/
theorem C155_dollar_short (prices volumes : List K) (threshold : K) (h : volumes.length < prices.length) :
    dollarBarIndexerChk prices volumes threshold = none := by
  unfold dollarBarIndexerChk
  cases hp : rd prices 0 with
  | none => rfl
  | some p =>
    cases hv : rd volumes 0 with
    | none => rfl
    | some v =>
      have hv0 : 0 < volumes.length := by
        have := (rd_isSome volumes 0).mp (by rw [hv]; rfl)
        omega
      simp only [Option.bind_eq_bind, Option.bind_some]
      exact dollarLoopChk_short _ _ _ _ _ _ ⟨volumes.length, by rw [List.mem_range'_1]; omega, le_refl _⟩

example : dollarBarIndexerChk (K := ℚ) [10, 20] [1, 1, 5] 15 = some [0, 1] ∧ dollarBarIndexerChk (K := ℚ) [10, 20] [1] 15 = none := by decide +kernel

/-! ## CUSUM bars -/

theorem firstNumberChk_eq (pre rest : List (Option K)) :
    firstNumberChk (pre ++ rest) (List.range' pre.length rest.length) =
      some (if rest.findIdx Option.isSome < rest.length then pre.length + rest.findIdx Option.isSome else 0) := by
  induction rest generalizing pre with
  | nil => simp [firstNumberChk]
  | cons s rest ih =>
    rw [List.length_cons, List.range'_succ]
    have h : (pre ++ s :: rest)[pre.length]? = some s := by simp
    cases s with
    | none =>
      have ih' := ih (pre ++ [none])
      simp only [List.append_assoc, List.singleton_append, List.length_append, List.length_singleton] at ih'
      simp only [firstNumberChk, rd_nat, h, ih', List.findIdx_cons, Option.isSome_none, cond_false]
      congr 1
      by_cases hc : rest.findIdx Option.isSome < rest.length
      · rw [if_pos hc, if_pos (by omega)]
        omega
      · rw [if_neg hc, if_neg (by omega)]
    | some x => simp [firstNumberChk, rd_nat, List.findIdx_cons]

/-- The first number in `sigma` is found inside the array. -/
theorem firstNumberChk_first (sigma : List (Option K)) : firstNumberChk sigma (List.range sigma.length) = some (firstNonNan sigma) := by
  have h := firstNumberChk_eq [] sigma
  simp only [List.nil_append, List.length_nil, Nat.zero_add] at h
  rw [List.range_eq_range', h]
  rfl

/-- The fill of `k` entries of `sigma` behind a number: in place, entry by entry from the left. -/
theorem fillChk_eq (pre : List (Option K)) (x : K) (rest : List (Option K)) (k : Nat) (hk : k ≤ rest.length) :
    fillChk (List.range' (pre.length + 1) k) (pre ++ some x :: rest) =
      some (pre ++ some x :: (forwardFill (some x) (rest.take k) ++ rest.drop k)) := by
  induction k generalizing pre x rest with
  | zero => simp [fillChk, forwardFill]
  | succ k ih =>
    cases rest with
    | nil => simp at hk
    | cons s rest =>
      have hk' : k ≤ rest.length := by simpa using hk
      rw [List.range'_succ]
      have h : (pre ++ some x :: s :: rest)[pre.length + 1]? = some s := by
        rw [List.getElem?_append_right (by omega)]
        simp
      cases s with
      | some y =>
        have ih' := ih (pre ++ [some x]) y rest hk'
        simp only [List.append_assoc, List.singleton_append, List.length_append, List.length_singleton] at ih'
        simp only [fillChk, rd_nat, h, ih', List.take_succ_cons, List.drop_succ_cons, forwardFill, List.cons_append]
      | none =>
        have hp : (pre ++ some x :: none :: rest)[pre.length]? = some (some x) := by simp
        have hw : wr (pre ++ some x :: none :: rest) ((pre.length + 1 : Nat) : Int) (some x) = some (pre ++ some x :: some x :: rest) := by
          unfold wr
          rw [if_pos ⟨by omega, by simp⟩]
          congr 1
          rw [Int.toNat_natCast, List.set_append_right _ _ (by omega)]
          simp
        have ih' := ih (pre ++ [some x]) x rest hk'
        simp only [List.append_assoc, List.singleton_append, List.length_append, List.length_singleton] at ih'
        simp only [fillChk, rd_nat, h, rd_pred, hp, hw, ih', List.take_succ_cons, List.drop_succ_cons, forwardFill, List.cons_append]

theorem forwardFill_pre (pre : List (Option K)) (hpre : ∀ s ∈ pre, s = none) (x : K) (rest : List (Option K)) :
    forwardFill none (pre ++ some x :: rest) = pre ++ some x :: forwardFill (some x) rest := by
  induction pre with
  | nil => rfl
  | cons s pre ih =>
    have hs := hpre s (by simp)
    subst hs
    simp only [List.cons_append, forwardFill, ih (fun t ht => hpre t (by simp [ht]))]

theorem length_forwardFill (p : Option K) (l : List (Option K)) : (forwardFill p l).length = l.length := by
  induction l generalizing p with
  | nil => rfl
  | cons s l ih => cases s <;> simp [forwardFill, ih]

theorem split_first_number (sigma : List (Option K)) (h : ∃ s ∈ sigma, s.isSome) :
    ∃ pre x rest, sigma = pre ++ some x :: rest ∧ (∀ s ∈ pre, s = none) ∧ firstNonNan sigma = pre.length := by
  induction sigma with
  | nil => obtain ⟨s, hs, _⟩ := h; simp at hs
  | cons s sigma ih =>
    cases s with
    | some x => exact ⟨[], x, sigma, rfl, by simp, by simp [firstNonNan, List.findIdx_cons]⟩
    | none =>
      have h' : ∃ s ∈ sigma, s.isSome := by
        obtain ⟨s, hs, hi⟩ := h
        rcases List.mem_cons.mp hs with rfl | hs
        · simp at hi
        · exact ⟨s, hs, hi⟩
      obtain ⟨pre, x, rest, e, hp, hf⟩ := ih h'
      refine ⟨none :: pre, x, rest, by rw [e]; rfl, ?_, ?_⟩
      · intro s hs
        rcases List.mem_cons.mp hs with rfl | hs
        · rfl
        · exact hp s hs
      · have hlt : sigma.findIdx (fun s => s.isSome) < sigma.length := List.findIdx_lt_length_of_exists h'
        unfold firstNonNan at hf ⊢
        simp only [hlt, if_true] at hf
        simp only [List.findIdx_cons, Option.isSome_none, cond_false, List.length_cons, Nat.add_lt_add_iff_right, hf]
        rw [if_pos (by rw [← hf]; exact hlt)]

theorem cusumBarLoopChk_eq (log : K → K) (ts : List Int) (prices : List K) (sigma : List (Option K)) (fl mu : K) (k i : Nat) (hi : 1 ≤ i)
    (hn : i + k ≤ prices.length) (ht : prices.length ≤ ts.length) (hs : prices.length ≤ sigma.length) (sPos sNeg : K) (out : List Nat) :
    cusumBarLoopChk log ts prices sigma fl mu (List.range' i k) sPos sNeg out =
      some (out ++ cusumBarLoop i sPos sNeg ((List.range' i k).map (cusumTickAt log ts prices sigma fl mu))) := by
  induction k generalizing i sPos sNeg out with
  | zero => simp [cusumBarLoopChk, cusumBarLoop]
  | succ k ih =>
    obtain ⟨j, rfl⟩ : ∃ j, i = j + 1 := ⟨i - 1, by omega⟩
    have ih' := fun a b o => ih (j + 1 + 1) (by omega) (by omega) a b o
    rw [List.range'_succ, List.map_cons]
    have p1 : prices[j + 1]? = some (prices.getD (j + 1) 0) := by
      rw [List.getElem?_eq_getElem (by omega)]; simp [List.getElem?_eq_getElem (show j + 1 < prices.length by omega)]
    have p2 : prices[j]? = some (prices.getD j 0) := by
      rw [List.getElem?_eq_getElem (by omega)]; simp [List.getElem?_eq_getElem (show j < prices.length by omega)]
    have s1 : sigma[j + 1]? = some (sigma.getD (j + 1) none) := by
      rw [List.getElem?_eq_getElem (by omega)]; simp [List.getElem?_eq_getElem (show j + 1 < sigma.length by omega)]
    have t1 : ts[j + 1]? = some (ts.getD (j + 1) 0) := by
      rw [List.getElem?_eq_getElem (by omega)]; simp [List.getElem?_eq_getElem (show j + 1 < ts.length by omega)]
    have t2 : j + 1 + 1 < prices.length → ts[j + 1 + 1]? = some (ts.getD (j + 1 + 1) 0) := by
      intro h
      rw [List.getElem?_eq_getElem (by omega)]; simp [List.getElem?_eq_getElem (show j + 1 + 1 < ts.length by omega)]
    have hblk : sameTimeChk ts prices.length (j + 1) =
        some (decide (j + 1 + 1 < prices.length) && decide (ts.getD (j + 1) 0 = ts.getD (j + 1 + 1) 0)) := by
      unfold sameTimeChk
      by_cases h : j + 1 + 1 < prices.length
      · simp only [h, if_true, rd_nat, rd_succ, t1, t2 h, decide_true, Bool.true_and]
      · simp [h]
    simp only [cusumBarLoopChk, rd_nat (xs := prices), rd_pred, p1, p2, hblk]
    generalize List.map (cusumTickAt log ts prices sigma fl mu) (List.range' (j + 1 + 1) k) = rest at ih' ⊢
    simp only [cusumBarLoop, cusumTickAt, Nat.add_sub_cancel]
    cases hb : (decide (j + 1 + 1 < prices.length) && decide (ts.getD (j + 1) 0 = ts.getD (j + 1 + 1) 0)) with
    | true => simp only [Bool.true_or, if_true, ih']
    | false =>
      simp only [Bool.false_or, rd_nat, s1]
      cases hsv : sigma.getD (j + 1) none with
      | none => simp only [Option.isNone_none, if_true, ih']
      | some s =>
        simp only [Option.isNone_some, Bool.false_eq_true, if_false]
        split
        · rw [ih']; simp
        · split
          · rw [ih']; simp
          · rw [ih']

/-- CUSUM bars: with as many volatilities as prices, at least one of them a number, and at least as many times, the run stays inside the arrays and
gives the model's indices. -/
theorem C155_cusum_bars (log : K → K) (ts : List Int) (prices : List K) (sigma : List (Option K)) (fl mu : K) (hs : prices.length = sigma.length)
    (ht : prices.length ≤ ts.length) (hnum : ∃ s ∈ sigma, s.isSome) :
    cusumBarIndexerChk log ts prices sigma fl mu = some (cusumBarIndexer log ts prices sigma fl mu) := by
  have hg : ¬ (prices.length ≠ sigma.length ∧ sigma.length ≠ ts.length) := by simp [hs]
  obtain ⟨pre, x, rest, e, hpre, hf⟩ := split_first_number sigma hnum
  have hn : prices.length = pre.length + (rest.length + 1) := by rw [hs, e]; simp
  have hfill : fillChk (List.range' pre.length (prices.length - pre.length)) sigma = some (forwardFill none sigma) := by
    rw [e, forwardFill_pre pre hpre, hn, Nat.add_sub_cancel_left, List.range'_succ]
    have h : (pre ++ some x :: rest)[pre.length]? = some (some x) := by simp
    simp only [fillChk, rd_nat, h]
    rw [fillChk_eq pre x rest rest.length (le_refl _)]
    simp
  unfold cusumBarIndexerChk cusumBarIndexer
  rw [if_neg hg, if_neg hg, firstNumberChk_first, hf]
  simp only [Option.bind_eq_bind, Option.bind_some, hfill]
  rw [cusumBarLoopChk_eq log ts prices (forwardFill none sigma) fl mu _ _ (by omega) (by omega) ht (by rw [length_forwardFill]; omega)]
  simp

example : cusumBarIndexerChk (K := ℚ) (fun x => x - 1) [0, 1, 2, 3] [100, 100, 110, 121] [none, some (1 / 20), none, some (1 / 20)] 0 1 =
    some (.ok [1, 2, 3]) := by decide +kernel

theorem fillChk_short (is : List Nat) (sigma : List (Option K)) (h : ∃ i ∈ is, sigma.length ≤ i) : fillChk is sigma = none := by
  induction is generalizing sigma with
  | nil => obtain ⟨i, hi, _⟩ := h; simp at hi
  | cons j is ih =>
    obtain ⟨i, hi, hl⟩ := h
    unfold fillChk
    by_cases hj : sigma.length ≤ j
    · rw [rd_none sigma (show (j : Int) < 0 ∨ (sigma.length : Int) ≤ (j : Int) by omega)]
    · have hmem : i ∈ is := by
        rcases List.mem_cons.mp hi with rfl | h
        · exact absurd hl hj
        · exact h
      cases rd sigma (j : Int) with
      | none => rfl
      | some v =>
        cases v with
        | some y => exact ih sigma ⟨i, hmem, hl⟩
        | none =>
          cases rd sigma ((j : Int) - 1) with
          | none => rfl
          | some w =>
            simp only []
            cases hw : wr sigma (j : Int) w with
            | none => rfl
            | some sigma' =>
              have hlen : sigma'.length = sigma.length := by
                unfold wr at hw
                split at hw
                · injection hw with hw
                  rw [← hw]; simp
                · cases hw
              exact ih sigma' ⟨i, hmem, by rw [hlen]; exact hl⟩

/-- Fewer volatilities than prices: with as many times as volatilities the length check lets the call pass (`len(prices) != len(sigma) !=
len(timestamps)` is a chain), and the fill of `sigma` leaves the array. -/
theorem C155_cusum_short_sigma (log : K → K) (ts : List Int) (prices : List K) (sigma : List (Option K)) (fl mu : K)
    (hs : sigma.length < prices.length) (ht : sigma.length = ts.length) : cusumBarIndexerChk log ts prices sigma fl mu = none := by
  have hg : ¬ (prices.length ≠ sigma.length ∧ sigma.length ≠ ts.length) := by simp [ht]
  have hf : firstNonNan sigma ≤ sigma.length := by
    unfold firstNonNan
    simp only []
    split <;> omega
  unfold cusumBarIndexerChk
  rw [if_neg hg, firstNumberChk_first]
  simp only [Option.bind_eq_bind, Option.bind_some]
  rw [fillChk_short _ _ ⟨sigma.length, by rw [List.mem_range'_1]; omega, le_refl _⟩]
  rfl

example : cusumBarIndexerChk (K := ℚ) (fun x => x - 1) [0, 1] [100, 101, 102] [some 1, some 1] 0 1 = none ∧
    (∃ l, cusumBarIndexer (K := ℚ) (fun x => x - 1) [0, 1] [100, 101, 102] [some 1, some 1] 0 1 = .ok l) := by
  refine ⟨by decide +kernel, ?_⟩
  exact ⟨_, rfl⟩

theorem cusumBarLoopChk_short (log : K → K) (ts : List Int) (prices : List K) (sigma : List (Option K)) (fl mu : K) (is : List Nat) (sPos sNeg : K)
    (out : List Nat) (h : ∃ i ∈ is, i + 1 < prices.length ∧ ts.length ≤ i + 1) :
    cusumBarLoopChk log ts prices sigma fl mu is sPos sNeg out = none := by
  induction is generalizing sPos sNeg out with
  | nil => obtain ⟨i, hi, _⟩ := h; simp at hi
  | cons j is ih =>
    obtain ⟨i, hi, hl⟩ := h
    unfold cusumBarLoopChk
    cases rd prices (j : Int) with
    | none => rfl
    | some p =>
      cases rd prices ((j : Int) - 1) with
      | none => rfl
      | some q =>
        simp only []
        by_cases hj : j + 1 < prices.length ∧ ts.length ≤ j + 1
        · have : sameTimeChk ts prices.length j = none := by
            unfold sameTimeChk
            rw [if_pos hj.1, rd_none ts (show (j : Int) + 1 < 0 ∨ (ts.length : Int) ≤ (j : Int) + 1 by omega)]
            cases rd ts (j : Int) <;> rfl
          rw [this]
        · have hmem : i ∈ is := by
            rcases List.mem_cons.mp hi with rfl | h
            · exact absurd hl hj
            · exact h
          have ih' := fun a b o => ih a b o ⟨i, hmem, hl⟩
          cases sameTimeChk ts prices.length j with
          | none => rfl
          | some b =>
            cases b with
            | true => exact ih' _ _ _
            | false =>
              simp only []
              cases rd sigma (j : Int) with
              | none => rfl
              | some v =>
                cases v with
                | none => exact ih' _ _ _
                | some s =>
                  simp only []
                  split
                  · exact ih' _ _ _
                  · split
                    · exact ih' _ _ _
                    · exact ih' _ _ _

/-- Fewer times than prices: with as many volatilities as prices the length check lets the call pass too, and the times are read beyond their end
as soon as two trades follow the first one with a volatility. -/
theorem C155_cusum_short_times (log : K → K) (ts : List Int) (prices : List K) (sigma : List (Option K)) (fl mu : K)
    (hs : prices.length = sigma.length) (ht : ts.length < prices.length) (hf : firstNonNan sigma + 2 < prices.length) :
    cusumBarIndexerChk log ts prices sigma fl mu = none := by
  have hg : ¬ (prices.length ≠ sigma.length ∧ sigma.length ≠ ts.length) := by simp [hs]
  unfold cusumBarIndexerChk
  rw [if_neg hg, firstNumberChk_first]
  simp only [Option.bind_eq_bind, Option.bind_some]
  cases fillChk (List.range' (firstNonNan sigma) (prices.length - firstNonNan sigma)) sigma with
  | none => rfl
  | some filled =>
    simp only [Option.bind_some]
    rw [cusumBarLoopChk_short log ts prices filled fl mu _ _ _ _ ⟨prices.length - 2, by rw [List.mem_range'_1]; omega, by omega, by omega⟩]
    rfl

example : cusumBarIndexerChk (K := ℚ) (fun x => x - 1) [0, 1] [100, 101, 102] [some 1, some 1, some 1] 0 1 = none ∧
    firstNonNan [some (1 : ℚ), some 1, some 1] + 2 < 3 := by decide +kernel

/-- No volatility is a number: the fill reads `sigma[-1]`, the last entry. -/
theorem C155_cusum_all_nan (log : K → K) (ts : List Int) (prices : List K) (sigma : List (Option K)) (fl mu : K) (hs : prices.length = sigma.length)
    (hn : ∀ s ∈ sigma, s = none) (hne : sigma ≠ []) : cusumBarIndexerChk log ts prices sigma fl mu = none := by
  have hg : ¬ (prices.length ≠ sigma.length ∧ sigma.length ≠ ts.length) := by simp [hs]
  have hf : firstNonNan sigma = 0 := by
    unfold firstNonNan
    have : ¬ sigma.findIdx (fun s => s.isSome) < sigma.length := by
      intro h
      obtain ⟨s, hs, hi⟩ := List.findIdx_lt_length.mp h
      rw [hn s hs] at hi
      simp at hi
    simp [this]
  cases sigma with
  | nil => exact absurd rfl hne
  | cons s sigma =>
    have := hn s (by simp)
    subst this
    unfold cusumBarIndexerChk
    rw [if_neg hg, firstNumberChk_first, hf]
    simp only [Option.bind_eq_bind, Option.bind_some, hs, List.length_cons, Nat.sub_zero, List.range'_succ, fillChk, rd_nat, List.getElem?_cons_zero]
    rw [rd_none (none :: sigma) (show ((0 : Nat) : Int) - 1 < 0 ∨ _ from Or.inl (by omega))]
    rfl

example : cusumBarIndexerChk (K := ℚ) (fun x => x - 1) [0, 1] [100, 101] [none, none] 0 1 = none := by decide +kernel

end FinML
