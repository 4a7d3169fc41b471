import Verif.Props.CusumBars
import Verif.Props.BarKit

/-!
# C109: the CUSUM builder fills the caller's volatility array in place

`_cusum_bar_indexer` (`finmlkit/bar/logic.py:186-189`) writes its forward fill into the array it was given, which is the
array the caller holds (`bar/kit.py:158,170`).  `get_sigma` (`bar/kit.py:178-183`) reads that array afterwards.
-/

set_option linter.unusedSectionVars false

namespace FinML

variable {K : Type} [Field K] [LinearOrder K] [IsStrictOrderedRing K]

theorem forwardFill_len (p : Option K) (l : List (Option K)) : (forwardFill p l).length = l.length := by
  induction l generalizing p with
  | nil => rfl
  | cons a l ih => cases a <;> simp [forwardFill, ih]

theorem forwardFill_idem (p : Option K) (l : List (Option K)) :
    forwardFill p (forwardFill p l) = forwardFill p l := by
  induction l generalizing p with
  | nil => rfl
  | cons a l ih =>
    cases a with
    | some s => simp [forwardFill, ih]
    | none => cases p <;> simp [forwardFill, ih]

theorem firstNonNan_fill (l : List (Option K)) : firstNonNan (forwardFill none l) = firstNonNan l := by
  have h : (forwardFill none l).findIdx (fun s => s.isSome) = l.findIdx (fun s => s.isSome) := by
    induction l with
    | nil => rfl
    | cons a l ih =>
      cases a with
      | some s => simp [forwardFill, List.findIdx_cons]
      | none => simp [forwardFill, List.findIdx_cons, ih]
  unfold firstNonNan
  simp only [h, forwardFill_len]

/-- The closes depend on the volatilities only through the forward fill. -/
theorem cusumBarIndexer_fill (log : K → K) (ts : List Int) (prices : List K) (sigma : List (Option K)) (floor mult : K) :
    cusumBarIndexer log ts prices (forwardFill none sigma) floor mult =
      cusumBarIndexer log ts prices sigma floor mult := by
  unfold cusumBarIndexer
  rw [forwardFill_len, firstNonNan_fill, forwardFill_idem]

theorem compBarClose_fill (log : K → K) (tr : KitTrades K) (sigma : List (Option K)) (floor mult : K) :
    compBarClose log tr (.cusum (forwardFill none sigma) floor mult) = compBarClose log tr (.cusum sigma floor mult) := by
  simp only [compBarClose, cusumBarIndexer_fill]

theorem sigmaAfter_len (n : Nat) (sigma : List (Option K)) : (sigmaAfter n sigma).length = sigma.length := by
  simp only [sigmaAfter, List.length_append, forwardFill_len, List.length_take, List.length_drop]; omega

theorem sigmaAfter_all (sigma : List (Option K)) (n : Nat) (h : sigma.length ≤ n) :
    sigmaAfter n sigma = forwardFill none sigma := by
  simp [sigmaAfter, List.take_of_length_le h, List.drop_of_length_le h]

theorem forwardFill_append (p : Option K) (l m : List (Option K)) :
    forwardFill p (l ++ m) = forwardFill p l ++ forwardFill (((l.filterMap id).getLast?).or p) m := by
  induction l generalizing p with
  | nil => simp [forwardFill]
  | cons a l ih =>
    cases a with
    | none => simp [forwardFill, ih]
    | some s =>
      simp only [List.cons_append, forwardFill, ih, List.filterMap_cons, id, List.getLast?_cons]
      congr 2
      cases (List.filterMap id l).getLast? <;> simp

theorem forwardFill_take (p : Option K) (l : List (Option K)) (k : Nat) :
    (forwardFill p l).take k = forwardFill p (l.take k) := by
  induction l generalizing p k with
  | nil => simp [forwardFill]
  | cons a l ih => cases k <;> cases a <;> simp [forwardFill, ih]

theorem forwardFill_drop (l : List (Option K)) (a : Nat) :
    (forwardFill none l).drop a = forwardFill (((l.take a).filterMap id).getLast?) (l.drop a) := by
  by_cases ha : a ≤ l.length
  · conv_lhs => rw [← List.take_append_drop a l, forwardFill_append]
    rw [List.drop_append_of_le_length (by rw [forwardFill_len, List.length_take]; omega),
      List.drop_of_length_le (by rw [forwardFill_len, List.length_take]; omega), List.nil_append, Option.or_none]
  · rw [List.drop_of_length_le (by rw [forwardFill_len]; omega), List.drop_of_length_le (by omega)]
    simp [forwardFill]

/-- **C109 (what is written).** After the closes of `n` trades were computed, the caller's array has its old length, holds
at every index below `n` the latest number at or before it (or still NaN, if there is none), and is unchanged from index
`n` on.  Entries that were numbers are unchanged. -/
theorem C109_array_after (log : K → K) (tr : KitTrades K) (floor mult : K) (mem : List (Option K)) (idx : List Nat)
    (h : cusumBarIndexer log tr.ts tr.prices mem floor mult = .ok idx) :
    let mem' := (cusumClose log tr floor mult mem).1
    mem'.length = mem.length ∧
    (∀ j, j < tr.prices.length → j < mem.length → mem'.getD j none = latestSigma mem j) ∧
    (∀ j, tr.prices.length ≤ j → mem'.getD j none = mem.getD j none) ∧
    (∀ j s, mem.getD j none = some s → mem'.getD j none = some s) := by
  intro mem'
  have hm : mem' = sigmaAfter tr.prices.length mem := by
    show (cusumClose log tr floor mult mem).1 = _
    simp only [cusumClose, h]
  have h1 : ∀ j, j < tr.prices.length → j < mem.length → mem'.getD j none = latestSigma mem j := by
    intro j h1 h2
    rw [hm]
    unfold sigmaAfter
    rw [List.getD_append _ _ _ _ (by rw [forwardFill_len, List.length_take]; omega),
      forwardFill_getD _ _ _ (by rw [List.length_take]; omega), Option.or_none, List.take_take,
      Nat.min_eq_left (by omega)]
    rfl
  have h2 : ∀ j, tr.prices.length ≤ j → mem'.getD j none = mem.getD j none := by
    intro j hj
    rw [hm]
    unfold sigmaAfter
    rw [List.getD_append_right _ _ _ _ (by rw [forwardFill_len, List.length_take]; omega), forwardFill_len,
      List.length_take]
    by_cases hl : tr.prices.length ≤ mem.length
    · rw [Nat.min_eq_left hl, List.getD_eq_getElem?_getD, List.getD_eq_getElem?_getD, List.getElem?_drop]
      congr 2; omega
    · rw [List.drop_of_length_le (by omega), List.getD_eq_default _ _ (by simp), List.getD_eq_default _ _ (by omega)]
  refine ⟨by rw [hm, sigmaAfter_len], h1, h2, ?_⟩
  intro j s hs
  by_cases hj : tr.prices.length ≤ j
  · rw [h2 j hj, hs]
  · have hjl : j < mem.length := by
      by_contra hc
      rw [List.getD_eq_default _ _ (by omega)] at hs
      exact absurd hs (by simp)
    rw [h1 j (by omega) hjl]
    unfold latestSigma
    rw [List.getD_eq_getElem _ _ hjl] at hs
    rw [List.take_add_one, List.getElem?_eq_getElem hjl, hs]
    simp

/- Non-vacuity: three trades, a leading NaN that stays and an inner one that is filled. -/
example : (cusumClose (fun x : ℚ => x - 1) ⟨[0, 1, 2], [1, 2, 4], [1, 1, 1], [1, 1, 1]⟩ 0 1 [none, some 1, none]).1 =
    [none, some 1, some 1] := by decide +kernel

/-- **C109 (a second builder).** A builder over the same number of trades that is given the array after an earlier builder
filled it finds the same closes as with the original array, and leaves the array as it is. -/
theorem C109_rebuild (log : K → K) (tr tr' : KitTrades K) (floor mult floor' mult' : K) (mem : List (Option K))
    (hn : mem.length = tr.prices.length) (hn' : tr'.prices.length = tr.prices.length) :
    let mem' := (cusumClose log tr floor mult mem).1
    (cusumClose log tr' floor' mult' mem').2 = (cusumClose log tr' floor' mult' mem).2 ∧
    (cusumClose log tr' floor' mult' mem').1 = mem' := by
  intro mem'
  have hm : mem' = forwardFill none mem := by
    show (cusumClose log tr floor mult mem).1 = _
    have : cusumBarIndexer log tr.ts tr.prices mem floor mult =
        .ok (firstNonNan mem :: cusumBarLoop (firstNonNan mem + 1) 0 0
          ((List.range' (firstNonNan mem + 1) (tr.prices.length - (firstNonNan mem + 1))).map
            (cusumTickAt log tr.ts tr.prices (forwardFill none mem) floor mult))) := by
      unfold cusumBarIndexer
      rw [if_neg (by omega)]
    simp only [cusumClose, this]
    exact sigmaAfter_all _ _ (by omega)
  constructor
  · show compBarClose log tr' (.cusum mem' floor' mult') = compBarClose log tr' (.cusum mem floor' mult')
    rw [hm, compBarClose_fill]
  · show (match cusumBarIndexer log tr'.ts tr'.prices mem' floor' mult' with
      | .error _ => mem'
      | .ok _ => sigmaAfter tr'.prices.length mem') = mem'
    split
    · rfl
    · rw [sigmaAfter_all _ _ (by rw [hm, forwardFill_len]; omega), hm, forwardFill_idem]

example : (cusumClose (fun x : ℚ => x - 1) ⟨[0, 1, 2], [1, 2, 4], [1, 1, 1], [1, 1, 1]⟩ 0 1 [none, some 1, none]).2.toOption =
    some ([1, 2], [1, 2]) := by decide +kernel

theorem takeAt_eq_of_lt (ts : List Int) (l : List Nat) (h : ∀ i ∈ l, i < ts.length) :
    takeAt ts l = .ok (l.map (fun i => ts.getD i 0)) := by
  induction l with
  | nil => rfl
  | cons i l ih =>
    have hi := h i (by simp)
    simp only [takeAt, List.getElem?_eq_getElem hi, ih (fun j hj => h j (by simp [hj])), List.map_cons,
      List.getD_eq_getElem _ _ hi]

/-- **C109 (`get_sigma`).** With arrays of equal length and at least one number among the volatilities, `get_sigma` returns
for every bar close the latest number at or before the closing trade, even where the caller had passed NaN.  It never
contains NaN. -/
theorem C109_get_sigma (log : K → K) (tr : KitTrades K) (sigma : List (Option K)) (floor mult : K)
    (hs : sigma.length = tr.prices.length) (ht : tr.ts.length = tr.prices.length) (hnn : ∃ s ∈ sigma, s ≠ none) :
    ∃ (f : Nat) (c : List Nat), cusumBarIndexer log tr.ts tr.prices sigma floor mult = .ok (f :: c) ∧
      getSigma log tr sigma floor mult = .ok (c.map (latestSigma sigma)) ∧
      ∀ j ∈ c, (latestSigma sigma j).isSome := by
  obtain ⟨c, h1, h2, h3, h4⟩ := C06_cusumBars log tr.ts tr.prices sigma floor mult hs ht hnn
  have hf : sigma.findIdx (fun s => s.isSome) < sigma.length := by
    apply List.findIdx_lt_length_of_exists
    obtain ⟨s, h1, h2⟩ := hnn
    exact ⟨s, h1, by cases s <;> simp_all⟩
  have hlt : ∀ j ∈ c.map Prod.fst, sigma.findIdx (fun s => s.isSome) < j ∧ j < tr.prices.length := by
    intro j hj
    obtain ⟨x, hx, rfl⟩ := List.mem_map.mp hj
    exact h3 x hx
  refine ⟨_, c.map Prod.fst, h1, ?_, ?_⟩
  · have h5 := takeAt_eq_of_lt tr.ts (sigma.findIdx (fun s => s.isSome) :: c.map Prod.fst) (by
      intro i hi
      rcases List.mem_cons.mp hi with rfl | hi
      · omega
      · have := (hlt i hi).2; omega)
    have h6 : compBarClose log tr (.cusum sigma floor mult) =
        .ok ((sigma.findIdx (fun s => s.isSome) :: c.map Prod.fst).map (fun i => tr.ts.getD i 0),
          (sigma.findIdx (fun s => s.isSome) :: c.map Prod.fst).map (fun i : Nat => (i : Int))) := by
      simp only [compBarClose, h1, closesAt, h5]
    have h7 := (C109_array_after log tr floor mult sigma _ h1).2.1
    show (match cusumClose log tr floor mult sigma with
      | (_, .error e) => (.error e : Except String (List (Option K)))
      | (mem, .ok c) => .ok (c.2.tail.map (fun i => pyGet mem none i))) = _
    have h8 : cusumClose log tr floor mult sigma = ((cusumClose log tr floor mult sigma).1,
        compBarClose log tr (.cusum sigma floor mult)) := rfl
    rw [h8, h6]
    simp only [List.map_cons, List.tail_cons, List.map_map]
    congr 1
    apply List.map_congr_left
    intro x hx
    have h9 := h3 x hx
    show pyGet _ none ((x.1 : Nat) : Int) = latestSigma sigma x.1
    unfold pyGet
    rw [if_neg (by omega), Int.toNat_natCast]
    exact h7 x.1 h9.2 (by omega)
  · intro j hj
    obtain ⟨h5, h6⟩ := hlt j hj
    unfold latestSigma
    rw [Option.isSome_iff_ne_none, Ne, List.getLast?_eq_none_iff, List.filterMap_eq_nil_iff]
    intro hc
    have h7 : sigma[sigma.findIdx (fun s => s.isSome)] ∈ sigma.take (j + 1) := by
      rw [List.mem_take_iff_getElem]
      exact ⟨_, by omega, rfl⟩
    have h8 := hc _ h7
    have h9 := List.findIdx_getElem (p := fun s : Option K => s.isSome) (xs := sigma) (w := hf)
    simp only [id] at h8
    rw [h8] at h9
    exact absurd h9 (by simp)

/- Non-vacuity: the volatility at the close of the last bar was passed as NaN. -/
example : (getSigma (fun x : ℚ => x - 1) ⟨[0, 1, 2], [1, 2, 4], [1, 1, 1], [1, 1, 1]⟩ [none, some 1, none] 0 1).toOption =
    some [some 1] := by decide +kernel

/-- `get_sigma` is documented as "the sigma threshold used for the CUSUM at close indices".  The threshold in force is
`max(sigma_mult * sigma, sigma_floor)`: here `get_sigma` reports `1/4`, the move of `1/2` that closed the bar met the
threshold `2 * (1/4)`, and the same move does not close a bar under a floor of `1` although `get_sigma` would again be
computed from `1/4`. -/
theorem C109_get_sigma_is_not_threshold :
    let tr : KitTrades ℚ := ⟨[0, 1], [2, 3], [1, 1], [1, 1]⟩
    (getSigma (fun x => x - 1) tr [some (1/4), some (1/4)] 0 2).toOption = some [some (1/4)] ∧
    cusumLambda [some (1/4 : ℚ), some (1/4)] 0 2 1 = 1/2 ∧
    cusumLambda [some (1/4 : ℚ), some (1/4)] 1 2 1 = 1 ∧
    (getSigma (fun x => x - 1) tr [some (1/4), some (1/4)] 1 2).toOption = some [] := by decide +kernel

/-- **C109 (windows, sound case).** Let one builder run over all trades, and another over the window of trades from `a` on
with the matching view of the same array.  If the window starts with a number, or nothing before it is a number, the
second builder finds the same closes whether or not the first has run. -/
theorem C109_window_unaffected (log : K → K) (trF tr : KitTrades K) (floor mult floor' mult' : K) (a : Nat)
    (mem : List (Option K)) (hF : trF.prices.length = mem.length)
    (h : mem.getD a none ≠ none ∨ ∀ i < a, mem.getD i none = none) :
    (cusumCloseAt log tr floor' mult' a (cusumClose log trF floor mult mem).1).2 =
      (cusumCloseAt log tr floor' mult' a mem).2 := by
  have hm : (cusumClose log trF floor mult mem).1 = forwardFill none mem := by
    have : cusumBarIndexer log trF.ts trF.prices mem floor mult =
        .ok (firstNonNan mem :: cusumBarLoop (firstNonNan mem + 1) 0 0
          ((List.range' (firstNonNan mem + 1) (trF.prices.length - (firstNonNan mem + 1))).map
            (cusumTickAt log trF.ts trF.prices (forwardFill none mem) floor mult))) := by
      unfold cusumBarIndexer
      rw [if_neg (by omega)]
    simp only [cusumClose, this]
    exact sigmaAfter_all _ _ (by omega)
  show compBarClose log tr (.cusum (((cusumClose log trF floor mult mem).1.drop a).take tr.prices.length) floor' mult') =
    compBarClose log tr (.cusum ((mem.drop a).take tr.prices.length) floor' mult')
  rw [hm, forwardFill_drop, forwardFill_take]
  rcases h with h | h
  · have ha : a < mem.length := by
      by_contra hc
      exact h (List.getD_eq_default _ _ (by omega))
    obtain ⟨s, hs⟩ := Option.ne_none_iff_exists'.mp h
    rw [List.getD_eq_getElem _ _ ha] at hs
    rw [List.drop_eq_getElem_cons ha, hs]
    have : ∀ p : Option K, forwardFill p ((some s :: mem.drop (a + 1)).take tr.prices.length) =
        forwardFill none ((some s :: mem.drop (a + 1)).take tr.prices.length) := by
      intro p
      cases tr.prices.length <;> simp [forwardFill]
    rw [this, compBarClose_fill]
  · have : (mem.take a).filterMap id = [] := by
      rw [List.filterMap_eq_nil_iff]
      intro x hx
      obtain ⟨i, hi, rfl⟩ := List.mem_take_iff_getElem.mp hx
      have := h i (by omega)
      rw [List.getD_eq_getElem _ _ (by omega)] at this
      simpa using this
    rw [this, List.getLast?_nil, compBarClose_fill]

example : ([none, some 1, none, some 2] : List (Option ℚ)).getD 1 none ≠ none ∧
    (cusumCloseAt (fun x : ℚ => x - 1) ⟨[2, 3, 4], [1, 4, 4], [1, 1, 1], [1, 1, 1]⟩ 0 1 1 [none, some 1, none, some 2]).2.toOption =
      some ([2, 3], [0, 1]) := by decide +kernel

/-- **C109 (windows, violation).** Otherwise building the bars of all trades first changes the bars of a window: on its own
the window starts at its first number, afterwards at its first trade, with a volatility carried over from before the
window. -/
theorem C109_window_depends_on_order :
    let trF : KitTrades ℚ := ⟨[0, 1, 2], [1, 1, 4], [1, 1, 1], [1, 1, 1]⟩
    let tr : KitTrades ℚ := ⟨[1, 2], [1, 4], [1, 1], [1, 1]⟩
    let mem : List (Option ℚ) := [some 1, none, some 1]
    (cusumCloseAt (fun x => x - 1) tr 0 1 1 mem).2.toOption = some ([2], [1]) ∧
    (cusumCloseAt (fun x => x - 1) tr 0 1 1 (cusumClose (fun x => x - 1) trF 0 1 mem).1).2.toOption =
      some ([1, 2], [0, 1]) := by decide +kernel

theorem cusumClose_mem_len (log : K → K) (tr : KitTrades K) (floor mult : K) (mem : List (Option K)) :
    (cusumClose log tr floor mult mem).1.length = mem.length := by
  show (match cusumBarIndexer log tr.ts tr.prices mem floor mult with
      | .error _ => mem
      | .ok _ => sigmaAfter tr.prices.length mem).length = _
  split
  · rfl
  · exact sigmaAfter_len _ _

/-- **C109 (disjoint windows).** Builders over disjoint windows of the trades that share one array do not affect each
other: each finds the same closes whether it runs first or second. -/
theorem C109_disjoint_windows (log : K → K) (tr tr' : KitTrades K) (floor mult floor' mult' : K) (a b : Nat)
    (mem : List (Option K)) (hab : a + tr.prices.length ≤ b) (hb : b ≤ mem.length) :
    (cusumCloseAt log tr' floor' mult' b (cusumCloseAt log tr floor mult a mem).1).2 =
      (cusumCloseAt log tr' floor' mult' b mem).2 ∧
    (cusumCloseAt log tr floor mult a (cusumCloseAt log tr' floor' mult' b mem).1).2 =
      (cusumCloseAt log tr floor mult a mem).2 := by
  constructor
  · show compBarClose log tr' (.cusum (((mem.take a ++ (cusumClose log tr floor mult ((mem.drop a).take tr.prices.length)).1
        ++ mem.drop (a + tr.prices.length)).drop b).take tr'.prices.length) floor' mult') =
      compBarClose log tr' (.cusum ((mem.drop b).take tr'.prices.length) floor' mult')
    have hl : (mem.take a ++ (cusumClose log tr floor mult ((mem.drop a).take tr.prices.length)).1).length =
        a + tr.prices.length := by
      rw [List.length_append, cusumClose_mem_len, List.length_take, List.length_take, List.length_drop]; omega
    rw [List.drop_append, List.drop_of_length_le (by omega), List.nil_append, List.drop_drop, hl]
    have : a + tr.prices.length + (b - (a + tr.prices.length)) = b := by omega
    rw [this]
  · show compBarClose log tr (.cusum (((mem.take b ++ (cusumClose log tr' floor' mult'
        ((mem.drop b).take tr'.prices.length)).1 ++ mem.drop (b + tr'.prices.length)).drop a).take tr.prices.length)
        floor mult) = compBarClose log tr (.cusum ((mem.drop a).take tr.prices.length) floor mult)
    rw [List.append_assoc, List.drop_append_of_le_length (by rw [List.length_take]; omega),
      List.take_append_of_le_length (by rw [List.length_drop, List.length_take]; omega), List.drop_take, List.take_take,
      Nat.min_eq_left (by omega)]

/- Non-vacuity: two windows of two trades each. -/
example : (cusumCloseAt (fun x : ℚ => x - 1) ⟨[2, 3], [1, 4], [1, 1], [1, 1]⟩ 0 1 2
    (cusumCloseAt (fun x : ℚ => x - 1) ⟨[0, 1], [1, 4], [1, 1], [1, 1]⟩ 0 1 0 [some 1, none, none, some 1]).1).1 =
    [some 1, some 1, none, some 1] := by decide +kernel

end FinML
