/-
C158: array accesses of the compiled helpers of the trade preparation.
-/
import Verif.Model.CheckedPrep
import Verif.Props.CheckedFeatures

set_option linter.unusedSectionVars false

namespace FinML

variable {K : Type} [Field K] [LinearOrder K] [IsStrictOrderedRing K]

/-! ## Trade sides -/

theorem tradeSideLoop_length (eps prev : K) (tick : Int) (l : List K) : (tradeSideLoop eps prev tick l).length = l.length := by
  induction l generalizing prev tick with
  | nil => rfl
  | cons p ps ih => simp [tradeSideLoop, ih]

theorem tradeSideLoop_getD (eps prev : K) (tick : Int) (l : List K) (i : Nat) (hi : i < l.length) :
    (tradeSideLoop eps prev tick l).getD i 0 =
      tradeSide eps (l.getD i 0) ((prev :: l).getD i 0) ((tick :: tradeSideLoop eps prev tick l).getD i 0) := by
  induction l generalizing prev tick i with
  | nil => simp at hi
  | cons p ps ih =>
    cases i with
    | zero => simp [tradeSideLoop]
    | succ i =>
      have h := ih p (tradeSide eps p prev tick) i (by simpa using hi)
      simpa [tradeSideLoop] using h

/-- **C158**: on a non-empty price array every access of the tick rule stays inside its array and the result is that of the model. -/
theorem C158_trade_sides (eps : K) (prices : List K) (hne : prices ≠ []) :
    tradeSideVectorChk eps prices = some ((tradeSideVector eps prices).map some) := by
  cases prices with
  | nil => exact absurd rfl hne
  | cons p ps =>
    have hlen : (tradeSideVector eps (p :: ps)).length = ps.length + 1 := by simp [tradeSideVector, tradeSideLoop_length]
    have h0 : rd (p :: ps) 0 = some p := rfl
    unfold tradeSideVectorChk
    rw [h0]
    simp only [Option.bind_eq_bind, Option.bind_some, List.length_cons, Nat.add_sub_cancel]
    have hz : List.replicate (ps.length + 1) (some (0 : Int)) = filled (some 0) (ps.length + 1) 1 (fun i => (tradeSideVector eps (p :: ps)).getD i 0) := by
      apply filled_ext _ _ _ _ _ (by simp)
      intro j hj
      rw [List.getElem?_replicate, if_pos hj]
      by_cases h : j < 1
      · rw [if_pos h, show j = 0 by omega]; simp [tradeSideVector]
      · rw [if_neg h]
    rw [hz]
    have hf := fillLoop_filled (tradeSideStepChk eps (p :: ps)) (some 0) (ps.length + 1) (fun i => (tradeSideVector eps (p :: ps)).getD i 0)
      (fun i => ((p :: ps).getD (i - 1) 0, (tradeSideVector eps (p :: ps)).getD (i - 1) 0)) ps.length 1 (by omega) (by
        intro i h1 h2
        obtain ⟨j, rfl⟩ : ∃ j, i = j + 1 := ⟨i - 1, by omega⟩
        have hr : rd (p :: ps) ((j + 1 : Nat) : Int) = some (ps.getD j 0) := by
          rw [rd_getD (p :: ps) 0 (j + 1) (by simp; omega)]
          simp
        have hs := tradeSideLoop_getD eps p 0 ps j (by omega)
        unfold tradeSideStepChk
        rw [hr]
        simp only [Option.map_some, Nat.add_sub_cancel, tradeSideVector, List.getD_cons_succ]
        rw [hs])
    have hf' : fillLoop (tradeSideStepChk eps (p :: ps)) (List.range' 1 ps.length) (p, 0)
        (filled (some 0) (ps.length + 1) 1 (fun i => (tradeSideVector eps (p :: ps)).getD i 0)) =
        some (filled (some 0) (ps.length + 1) (1 + ps.length) (fun i => (tradeSideVector eps (p :: ps)).getD i 0)) := hf
    rw [hf', filled_all _ _ _ (by omega)]
    congr 2
    apply List.ext_getElem?
    intro j
    by_cases hj : j < ps.length + 1
    · have hj' : j < (tradeSideVector eps (p :: ps)).length := by rw [hlen]; exact hj
      rw [List.getElem?_eq_getElem hj', ← List.getD_eq_getElem _ 0 hj']
      simp [tabulate, hj]
    · rw [List.getElem?_eq_none (by simp [tabulate]; omega), List.getElem?_eq_none (by rw [hlen]; omega)]

/-- **C158**: an empty price array is read outside its bounds. -/
theorem C158_trade_sides_empty (eps : K) : tradeSideVectorChk eps ([] : List K) = none := rfl

example : tradeSideVectorChk (1 / 10 : ℚ) [5, 5, 6, 6, 4] = some [some 0, some 0, some 1, some 1, some (-1)] := by decide +kernel

/-! ## Order of the timestamps -/

theorem orderLoopChk_eq (pre : List Int) (a : Int) (l : List Int) :
    orderLoopChk (pre ++ a :: l) (List.range' (pre.length + 1) l.length) = some (checkTimestampsOrder (a :: l)) := by
  induction l generalizing pre a with
  | nil => rfl
  | cons b l ih =>
    rw [List.length_cons, List.range'_succ]
    have h1 : rd (pre ++ a :: b :: l) ((pre.length + 1 : Nat) : Int) = some b := by rw [rd_nat]; simp
    have h2 : rd (pre ++ a :: b :: l) (((pre.length + 1 : Nat) : Int) - 1) = some a := by
      rw [show (((pre.length + 1 : Nat) : Int) - 1) = (pre.length : Int) by omega, rd_nat]; simp
    simp only [orderLoopChk, h1, h2, Option.bind_eq_bind, Option.bind_some, checkTimestampsOrder]
    by_cases h : b < a
    · simp [h]
    · simp only [h, if_false]
      have := ih (pre ++ [a]) b
      simpa using this

/-- **C158**: the order check never leaves the array, and returns the value of the model. -/
theorem C158_order (ts : List Int) : checkTimestampsOrderChk ts = some (checkTimestampsOrder ts) := by
  cases ts with
  | nil => rfl
  | cons a l => exact orderLoopChk_eq [] a l

example : checkTimestampsOrderChk [1, 2, 2, 5] = some true ∧ checkTimestampsOrderChk [1, 3, 2, 5] = some false := by decide +kernel

/-! ## Merging of split trades -/

/-- An `np.empty` array of `n` entries whose first entries hold `l`. -/
def padded {α : Type} (n : Nat) (l : List α) : List (Option α) := l.map some ++ List.replicate (n - l.length) none

theorem padded_push {α : Type} (n : Nat) (l : List α) (x : α) (h : l.length < n) : wr (padded n l) (l.length : Int) (some x) = some (padded n (l ++ [x])) := by
  rw [wr_nat _ _ _ (by simp [padded]; omega)]
  congr 1
  unfold padded
  obtain ⟨k, hk⟩ : ∃ k, n - l.length = k + 1 := ⟨n - l.length - 1, by omega⟩
  rw [hk, List.set_append_right _ _ (by simp)]
  simp [List.replicate_succ, show n - (l.length + 1) = k by omega]

theorem padded_last {α : Type} (n : Nat) (l : List α) (x y : α) (h : l.length < n) :
    wr (padded n (l ++ [x])) (l.length : Int) (some y) = some (padded n (l ++ [y])) := by
  rw [wr_nat _ _ _ (by simp [padded])]
  congr 1
  unfold padded
  simp [List.set_append_right]

theorem padded_rd {α : Type} (n : Nat) (l : List α) (x : α) : rdSet (padded n (l ++ [x])) (l.length : Int) = some x := by
  unfold rdSet padded
  rw [rd_nat]
  simp

theorem padded_take {α : Type} (n : Nat) (l : List α) : (padded n l).take l.length = l.map some := by
  unfold padded
  rw [List.take_append_of_le_length (by simp)]
  simp [List.take_of_length_le]

/-- The input trades of the four arrays. -/
def rawTrades (ts : List Int) (px am : List K) (mk : Option (List Bool)) : List (RawTrade K) :=
  tabulate ts.length (fun i => ⟨ts.getD i 0, px.getD i 0, am.getD i 0, (mk.getD []).getD i false⟩)

/-- The working arrays holding the output trades `l`, the last one being built. -/
def mergeState (n : Nat) (withSide : Bool) (l : List (MTrade K)) (idx : Int) : MergeRun K :=
  ⟨padded n (l.map MTrade.ts), padded n (l.map MTrade.price), padded n (l.map MTrade.amount),
   if withSide then padded n (l.map MTrade.side) else [], idx⟩

theorem mergeEmpty_eq (n : Nat) (w : Bool) : (mergeEmpty n w : MergeRun K) = mergeState n w [] 0 := by
  simp [mergeEmpty, mergeState, padded]

/-- All four input arrays have an entry `i`. -/
def Covers (px am : List K) (mk : Option (List Bool)) (n : Nat) : Prop := n ≤ px.length ∧ n ≤ am.length ∧ ∀ m, mk = some m → n ≤ m.length

theorem mergeStartChk_eq (ts : List Int) (px am : List K) (mk : Option (List Bool)) (hc : Covers px am mk ts.length) (l : List (MTrade K)) (i : Nat)
    (hi : i < ts.length) (hl : l.length < ts.length) (j : Int) :
    mergeStartChk ts px am mk (mergeState ts.length mk.isSome l j) i (l.length : Int) =
      some (mergeState ts.length mk.isSome (l ++ [MTrade.start mk.isSome ⟨ts.getD i 0, px.getD i 0, am.getD i 0, (mk.getD []).getD i false⟩]) (l.length : Int)) := by
  have h1 : rd ts (i : Int) = some (ts.getD i 0) := rd_getD _ _ _ hi
  have h2 : rd px (i : Int) = some (px.getD i 0) := rd_getD _ _ _ (by have := hc.1; omega)
  have h3 : rd am (i : Int) = some (am.getD i 0) := rd_getD _ _ _ (by have := hc.2.1; omega)
  have w1 := padded_push ts.length (l.map MTrade.ts) (ts.getD i 0) (by simpa using hl)
  have w2 := padded_push ts.length (l.map MTrade.price) (px.getD i 0) (by simpa using hl)
  have w3 := padded_push ts.length (l.map MTrade.amount) (am.getD i 0) (by simpa using hl)
  rw [List.length_map] at w1 w2 w3
  cases mk with
  | none =>
    simp only [mergeStartChk, mergeState, h1, h2, h3, w1, w2, w3, Option.bind_eq_bind, Option.bind_some]
    simp [MTrade.start]
  | some m =>
    have h4 : rd m (i : Int) = some (m.getD i false) := rd_getD _ _ _ (by have := hc.2.2 m rfl; omega)
    have w4 := padded_push ts.length (l.map MTrade.side) (makerSide (m.getD i false)) (by simpa using hl)
    rw [List.length_map] at w4
    simp only [mergeStartChk, mergeState, h1, h2, h3, h4, w1, w2, w3, Option.isSome_some, if_true, w4, Option.bind_eq_bind, Option.bind_some]
    simp [MTrade.start]

theorem sameTradeChk_eq (tol : K) (ts : List Int) (px am : List K) (mk : Option (List Bool)) (hc : Covers px am mk ts.length) (l : List (MTrade K))
    (cur : MTrade K) (i : Nat) (hi : i < ts.length) :
    sameTradeChk tol ts px mk (mergeState ts.length mk.isSome (l ++ [cur]) (l.length : Int)) i =
      some (sameTrade tol mk.isSome cur ⟨ts.getD i 0, px.getD i 0, am.getD i 0, (mk.getD []).getD i false⟩) := by
  have h1 : rd ts (i : Int) = some (ts.getD i 0) := rd_getD _ _ _ hi
  have h2 : rd px (i : Int) = some (px.getD i 0) := rd_getD _ _ _ (by have := hc.1; omega)
  have r1 := padded_rd ts.length (l.map MTrade.ts) cur.ts
  have r2 := padded_rd ts.length (l.map MTrade.price) cur.price
  have r4 := padded_rd ts.length (l.map MTrade.side) cur.side
  rw [List.length_map] at r1 r2 r4
  have hp : samePriceChk tol ts px (mergeState ts.length mk.isSome (l ++ [cur]) (l.length : Int)) i =
      some (decide (ts.getD i 0 = cur.ts) && decide (|px.getD i 0 - cur.price| < tol)) := by
    simp only [samePriceChk, mergeState, List.map_append, List.map_cons, List.map_nil, h1, h2, r1, r2, Option.bind_eq_bind, Option.bind_some]
    by_cases h : ts.getD i 0 = cur.ts
    · rw [if_pos h, decide_eq_true h, Bool.true_and]
    · rw [if_neg h, decide_eq_false h, Bool.false_and]
  unfold sameTradeChk
  rw [hp]
  cases mk with
  | none => simp [mergeState, sameTrade]
  | some m =>
    have h4 : rd m (i : Int) = some (m.getD i false) := rd_getD _ _ _ (by have := hc.2.2 m rfl; omega)
    simp only [mergeState, Option.isSome_some, if_true, List.map_append, List.map_cons, List.map_nil, Option.bind_eq_bind, Option.bind_some, h4, r4]
    simp [sameTrade]

theorem mergeFold_eq (tol : K) (ts : List Int) (px am : List K) (mk : Option (List Bool)) (hc : Covers px am mk ts.length) (k i : Nat)
    (hk : i + k = ts.length) (l : List (MTrade K)) (cur : MTrade K) (hl : l.length < i) :
    ∃ out : List (MTrade K), out = l ++ mergeLoop tol mk.isSome cur ((rawTrades ts px am mk).drop i) ∧
      (List.range' i k).foldlM (mergeStepChk tol ts px am mk) (mergeState ts.length mk.isSome (l ++ [cur]) (l.length : Int)) =
        some (mergeState ts.length mk.isSome out ((out.length : Int) - 1)) := by
  induction k generalizing i l cur with
  | zero =>
    refine ⟨_, rfl, ?_⟩
    rw [List.drop_of_length_le (by simp [rawTrades, tabulate]; omega)]
    simp [mergeLoop]
  | succ k ih =>
    have hd : (rawTrades ts px am mk).drop i = ⟨ts.getD i 0, px.getD i 0, am.getD i 0, (mk.getD []).getD i false⟩ :: (rawTrades ts px am mk).drop (i + 1) := by
      rw [List.drop_eq_getElem_cons (by simp [rawTrades, tabulate]; omega)]
      congr 1
      simp [rawTrades, tabulate]
    rw [hd, List.range'_succ, List.foldlM_cons]
    have hst := sameTradeChk_eq tol ts px am mk hc l cur i (by omega)
    simp only [mergeLoop]
    cases hs : sameTrade tol mk.isSome cur ⟨ts.getD i 0, px.getD i 0, am.getD i 0, (mk.getD []).getD i false⟩ with
    | true =>
      have h3 : rd am (i : Int) = some (am.getD i 0) := rd_getD _ _ _ (by have := hc.2.1; omega)
      have r3 := padded_rd ts.length (l.map MTrade.amount) cur.amount
      have w3 := padded_last ts.length (l.map MTrade.amount) cur.amount (cur.amount + am.getD i 0) (by simp; omega)
      rw [List.length_map] at r3 w3
      have hstep : mergeStepChk tol ts px am mk (mergeState ts.length mk.isSome (l ++ [cur]) (l.length : Int)) i =
          some (mergeState ts.length mk.isSome (l ++ [{ cur with amount := cur.amount + am.getD i 0 }]) (l.length : Int)) := by
        unfold mergeStepChk
        rw [hst, hs]
        simp only [Option.bind_eq_bind, Option.bind_some, if_true, h3, mergeState, List.map_append, List.map_cons, List.map_nil, r3, w3]
      rw [hstep]
      simp only [Option.bind_eq_bind, Option.bind_some, if_true]
      exact ih (i + 1) (by omega) l _ (by omega)
    | false =>
      have hm := mergeStartChk_eq ts px am mk hc (l ++ [cur]) i (by omega) (by simp; omega) (l.length : Int)
      have hstep : mergeStepChk tol ts px am mk (mergeState ts.length mk.isSome (l ++ [cur]) (l.length : Int)) i =
          some (mergeState ts.length mk.isSome ((l ++ [cur]) ++ [MTrade.start mk.isSome ⟨ts.getD i 0, px.getD i 0, am.getD i 0, (mk.getD []).getD i false⟩])
            ((l ++ [cur]).length : Int)) := by
        unfold mergeStepChk
        rw [hst, hs]
        simp only [Option.bind_eq_bind, Option.bind_some, Bool.false_eq_true, if_false]
        rw [← hm]
        congr 1
        simp [mergeState]
      rw [hstep]
      simp only [Option.bind_eq_bind, Option.bind_some, Bool.false_eq_true, if_false]
      obtain ⟨out, ho, hr⟩ := ih (i + 1) (by omega) (l ++ [cur]) (MTrade.start mk.isSome ⟨ts.getD i 0, px.getD i 0, am.getD i 0, (mk.getD []).getD i false⟩)
        (by simp; omega)
      exact ⟨out, by rw [ho]; simp, hr⟩

/-- The arrays of a list of output trades. -/
def mergedArrays (withSide : Bool) (l : List (MTrade K)) : MergeOut K :=
  ⟨l.map (some ·.ts), l.map (some ·.price), l.map (some ·.amount), if withSide then l.map (some ·.side) else []⟩

/-- **C158**: on a non-empty set of trades whose price, amount and side arrays are at least as long as the timestamps, the merge stays inside every array,
reads no entry it has not written and returns the trades of the model. -/
theorem C158_merge (tol : K) (ts : List Int) (px am : List K) (mk : Option (List Bool)) (hne : ts ≠ []) (hc : Covers px am mk ts.length) :
    mergeSplitTradesChk tol ts px am mk = some (mergedArrays mk.isSome (mergeSplitTrades tol mk.isSome (rawTrades ts px am mk))) := by
  have hn : 0 < ts.length := List.length_pos_iff.mpr hne
  have h0 := mergeStartChk_eq ts px am mk hc [] 0 hn (by simpa using hn) 0
  have hraw : rawTrades ts px am mk = ⟨ts.getD 0 0, px.getD 0 0, am.getD 0 0, (mk.getD []).getD 0 false⟩ :: (rawTrades ts px am mk).drop 1 := by
    have hd : (rawTrades ts px am mk).drop 0 = ⟨ts.getD 0 0, px.getD 0 0, am.getD 0 0, (mk.getD []).getD 0 false⟩ :: (rawTrades ts px am mk).drop (0 + 1) := by
      rw [List.drop_eq_getElem_cons (by simp [rawTrades, tabulate]; omega)]
      congr 1
      simp [rawTrades, tabulate]
    simpa using hd
  obtain ⟨out, ho, hr⟩ := mergeFold_eq tol ts px am mk hc (ts.length - 1) 1 (by omega) []
    (MTrade.start mk.isSome ⟨ts.getD 0 0, px.getD 0 0, am.getD 0 0, (mk.getD []).getD 0 false⟩) (by simp)
  have hout : mergeSplitTrades tol mk.isSome (rawTrades ts px am mk) = out := by
    rw [hraw, ho]
    simp [mergeSplitTrades]
  have h0' : mergeStartChk ts px am mk (mergeEmpty ts.length mk.isSome) 0 0 =
      some (mergeState ts.length mk.isSome ([] ++ [MTrade.start mk.isSome ⟨ts.getD 0 0, px.getD 0 0, am.getD 0 0, (mk.getD []).getD 0 false⟩]) (([] : List (MTrade K)).length : Int)) := by
    rw [mergeEmpty_eq]
    exact h0
  unfold mergeSplitTradesChk
  rw [h0', hout]
  simp only [Option.bind_eq_bind, Option.bind_some]
  rw [hr]
  simp only [Option.bind_some, mergeCut, mergeState, mergedArrays]
  have hk : ((out.length : Int) - 1 + 1).toNat = out.length := by omega
  rw [hk]
  have t1 := padded_take ts.length (out.map MTrade.ts)
  have t2 := padded_take ts.length (out.map MTrade.price)
  have t3 := padded_take ts.length (out.map MTrade.amount)
  have t4 := padded_take ts.length (out.map MTrade.side)
  rw [List.length_map] at t1 t2 t3 t4
  rw [t1, t2, t3]
  cases mk.isSome <;> simp [t4, List.map_map, Function.comp_def]

example : mergeSplitTradesChk (1 / 10 : ℚ) [1, 1, 2] [5, 5, 5] [1, 2, 4] (some [true, true, false]) =
    some ⟨[some 1, some 2], [some 5, some 5], [some 3, some 4], [some (-1), some 1]⟩ := by decide +kernel

theorem rd_short {α : Type} (xs : List α) (i : Nat) (h : xs.length ≤ i) : rd xs (i : Int) = none := by rw [rd_nat]; exact List.getElem?_eq_none h

theorem foldlM_none_of {β σ : Type} (f : σ → β → Option σ) (l : List β) (b : β) (hb : b ∈ l) (h : ∀ s, f s b = none) (s : σ) : l.foldlM f s = none := by
  induction l generalizing s with
  | nil => simp at hb
  | cons c l ih =>
    rw [List.foldlM_cons]
    rcases List.mem_cons.mp hb with rfl | hb'
    · rw [h]; rfl
    · cases f s c with
      | none => rfl
      | some s' => exact ih hb' s'

/-- The merge keeps side information exactly when it was given. -/
theorem mergeStart_short (ts : List Int) (px am : List K) (mk : Option (List Bool)) (s : MergeRun K) (i : Nat) (idx : Int)
    (h : px.length ≤ i ∨ am.length ≤ i) : mergeStartChk ts px am mk s i idx = none := by
  unfold mergeStartChk
  cases rd ts (i : Int) with
  | none => rfl
  | some t =>
    simp only [Option.bind_eq_bind, Option.bind_some]
    cases wr s.ts idx (some t) with
    | none => rfl
    | some ots =>
      simp only [Option.bind_some]
      cases hp : rd px (i : Int) with
      | none => rfl
      | some p =>
        simp only [Option.bind_some]
        cases wr s.px idx (some p) with
        | none => rfl
        | some opx =>
          simp only [Option.bind_some]
          rcases h with h | h
          · rw [rd_short _ _ h] at hp; exact absurd hp (by simp)
          · rw [rd_short _ _ h]; rfl

theorem mergeStep_short (tol : K) (ts : List Int) (px am : List K) (mk : Option (List Bool)) (i : Nat) (h : am.length ≤ i) (s : MergeRun K) :
    mergeStepChk tol ts px am mk s i = none := by
  unfold mergeStepChk
  cases sameTradeChk tol ts px mk s i with
  | none => rfl
  | some b =>
    simp only [Option.bind_eq_bind, Option.bind_some]
    cases b with
    | true => rw [if_pos rfl, rd_short _ _ h]; rfl
    | false => simp only [Bool.false_eq_true, if_false]; exact mergeStart_short ts px am mk s i _ (Or.inr h)

theorem mergeStep_short_price (tol : K) (ts : List Int) (px am : List K) (mk : Option (List Bool)) (i : Nat) (h : px.length ≤ i) (s : MergeRun K) :
    mergeStepChk tol ts px am mk s i = none := by
  have hp : samePriceChk tol ts px s i = none ∨ samePriceChk tol ts px s i = some false := by
    unfold samePriceChk
    cases rd ts (i : Int) with
    | none => left; rfl
    | some t =>
      simp only [Option.bind_eq_bind, Option.bind_some]
      cases rdSet s.ts s.idx with
      | none => left; rfl
      | some t0 =>
        simp only [Option.bind_some]
        by_cases ht : t = t0
        · left; rw [if_pos ht, rd_short _ _ h]; rfl
        · right; rw [if_neg ht]
  have hs : sameTradeChk tol ts px mk s i = none ∨ sameTradeChk tol ts px mk s i = some false := by
    unfold sameTradeChk
    rcases hp with hp | hp
    · left; rw [hp]; rfl
    · rw [hp]
      simp only [Option.bind_eq_bind, Option.bind_some]
      cases mk with
      | none => right; rfl
      | some m =>
        dsimp only
        cases rd m (i : Int) with
        | none => left; rfl
        | some b =>
          simp only [Option.bind_some]
          cases rdSet s.side s.idx with
          | none => left; rfl
          | some d => right; simp
  unfold mergeStepChk
  rcases hs with hs | hs
  · rw [hs]; rfl
  · rw [hs]
    simp only [Option.bind_eq_bind, Option.bind_some, Bool.false_eq_true, if_false]
    exact mergeStart_short ts px am mk s i _ (Or.inl h)

theorem mergeStart_short_side (ts : List Int) (px am : List K) (m : List Bool) (s : MergeRun K) (i : Nat) (idx : Int)
    (h : m.length ≤ i) : mergeStartChk ts px am (some m) s i idx = none := by
  unfold mergeStartChk
  cases rd ts (i : Int) with
  | none => rfl
  | some t =>
    simp only [Option.bind_eq_bind, Option.bind_some]
    cases wr s.ts idx (some t) with
    | none => rfl
    | some ots =>
      simp only [Option.bind_some]
      cases rd px (i : Int) with
      | none => rfl
      | some p =>
        simp only [Option.bind_some]
        cases wr s.px idx (some p) with
        | none => rfl
        | some opx =>
          simp only [Option.bind_some]
          cases rd am (i : Int) with
          | none => rfl
          | some a =>
            simp only [Option.bind_some]
            cases wr s.am idx (some a) with
            | none => rfl
            | some oam => simp only [Option.bind_some, rd_short _ _ h]; rfl

theorem mergeStep_short_side (tol : K) (ts : List Int) (px am : List K) (m : List Bool) (i : Nat) (h : m.length ≤ i) (s : MergeRun K) :
    mergeStepChk tol ts px am (some m) s i = none := by
  have hs : sameTradeChk tol ts px (some m) s i = none := by
    unfold sameTradeChk
    cases samePriceChk tol ts px s i with
    | none => rfl
    | some b => simp only [Option.bind_eq_bind, Option.bind_some, rd_short _ _ h]; rfl
  unfold mergeStepChk
  rw [hs]; rfl

/-- **C158**: the merge stays inside its arrays exactly when there is a trade and the price, amount and side arrays are at least as long as the timestamps.
The function checks neither. -/
theorem C158_merge_iff (tol : K) (ts : List Int) (px am : List K) (mk : Option (List Bool)) :
    (mergeSplitTradesChk tol ts px am mk).isSome ↔ ts ≠ [] ∧ Covers px am mk ts.length := by
  constructor
  · intro hsome
    by_contra hno
    have hnone : mergeSplitTradesChk tol ts px am mk = none := by
      unfold mergeSplitTradesChk
      by_cases hts : ts = []
      · subst hts; rfl
      · have hc : ¬ Covers px am mk ts.length := fun hc => hno ⟨hts, hc⟩
        obtain ⟨i, hi, hor⟩ : ∃ i, i < ts.length ∧ (px.length ≤ i ∨ am.length ≤ i ∨ ∃ m, mk = some m ∧ m.length ≤ i) := by
          by_contra hall
          push Not at hall
          refine hc ⟨?_, ?_, ?_⟩
          · by_contra h; exact absurd (hall px.length (by omega)).1 (by omega)
          · by_contra h; exact absurd (hall am.length (by omega)).2.1 (by omega)
          · intro m hm; by_contra h; exact absurd ((hall m.length (by omega)).2.2 m hm) (by omega)
        have hstart : ∀ s idx, mergeStartChk ts px am mk s i idx = none := by
          intro s idx
          rcases hor with h | h | ⟨m, rfl, h⟩
          · exact mergeStart_short _ _ _ _ _ _ _ (Or.inl h)
          · exact mergeStart_short _ _ _ _ _ _ _ (Or.inr h)
          · exact mergeStart_short_side _ _ _ _ _ _ _ h
        have hstep : ∀ s, mergeStepChk tol ts px am mk s i = none := by
          intro s
          rcases hor with h | h | ⟨m, rfl, h⟩
          · exact mergeStep_short_price tol ts px am mk i h s
          · exact mergeStep_short tol ts px am mk i h s
          · exact mergeStep_short_side tol ts px am m i h s
        by_cases h0 : i = 0
        · subst h0
          rw [hstart]; rfl
        · cases mergeStartChk ts px am mk (mergeEmpty ts.length mk.isSome) 0 0 with
          | none => rfl
          | some s =>
            simp only [Option.bind_eq_bind, Option.bind_some]
            rw [foldlM_none_of _ _ i (by rw [List.mem_range'_1]; omega) hstep]
            rfl
    rw [hnone] at hsome
    simp at hsome
  · rintro ⟨hne, hc⟩
    rw [C158_merge tol ts px am mk hne hc]
    rfl

example : mergeSplitTradesChk (1 / 10 : ℚ) [1, 2] [5] [1, 2] none = none := by decide +kernel

end FinML
