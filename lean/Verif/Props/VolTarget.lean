/-
C148: the volatility target that the tutorials compute on the trades and join to the bars.
-/
import Verif.Model.VolTarget
import Verif.Props.LaggedReturns
import Verif.Props.Causal
import Verif.Props.BarKit
import Verif.Props.Append
import Verif.Props.TripleBarrier

set_option linter.unusedSectionVars false

namespace FinML

variable {K : Type} [Field K] [LinearOrder K] [IsStrictOrderedRing K]

/-- The value of `ewmst` at `i`, without the special case of the first row. -/
theorem ewmst_getD (sqrt : K → K) (decay : Int → K) (floor : K) (ts : List Int) (y : List (Option K)) (i : Nat) (hi : i < y.length) :
    (ewmst sqrt decay floor ts y).getD i none = ewmstVal sqrt floor (ewmstState decay ts y i) := by
  unfold ewmst
  rw [tabulate_getD _ _ _ _ hi]
  split
  · rename_i h
    subst h
    simp [ewmstState, ewmstVal]
  · rfl

/-- Rows with the same timestamp leave the sums as they are. -/
theorem ewmstState_block (decay : Int → K) (h0 : decay 0 = 1) (ts : List Int) (y : List (Option K)) (i j : Nat) (hij : i ≤ j)
    (h : ∀ k, i ≤ k → k ≤ j → ts.getD k 0 = ts.getD i 0) : ewmstState decay ts y j = ewmstState decay ts y i := by
  induction j with
  | zero => rw [show i = 0 by omega]
  | succ j ih =>
    by_cases hi : i = j + 1
    · rw [hi]
    · rw [← ih (by omega) (fun k h1 h2 => h k h1 (by omega)), ewmstState]
      have hd : decayAt decay ts (j + 1) = 1 := by
        unfold decayAt
        rw [h (j + 1) (by omega) (le_refl _), Nat.add_sub_cancel, h j (by omega) (by omega), sub_self, h0]
      simp [hd]

/-- The series on the trades, for a positive window. -/
theorem volSeries_ok (log sqrt : K → K) (decay : Int → K) (floor : K) (w : Int) (hw : 0 < w) (isLog : Bool) (tr : KitTrades K) :
    ∃ r v, laggedReturns log tr.ts tr.prices w isLog = .ok r ∧ r.length = tr.prices.length ∧ v = ewmst sqrt decay floor tr.ts (r.map Ext.toOpt) ∧
      volSeries log sqrt decay floor w isLog tr = .ok v ∧ v.length = tr.prices.length := by
  obtain ⟨r, h1, h2, _⟩ := laggedReturns_get log tr.ts tr.prices w isLog hw
  refine ⟨r, _, h1, h2, rfl, by unfold volSeries; rw [h1], ?_⟩
  unfold ewmst
  rw [length_tabulate, List.length_map, h2]

/-- **C148 (blocks).** Trades with the same timestamp all have the same volatility: only the first print of a block enters the estimate. -/
theorem C148_block (log sqrt : K → K) (decay : Int → K) (h0 : decay 0 = 1) (floor : K) (w : Int) (hw : 0 < w) (isLog : Bool) (tr : KitTrades K)
    (hs : tr.ts.Pairwise (· ≤ ·)) (hlen : tr.ts.length = tr.prices.length) (i j : Nat) (hij : i ≤ j) (hj : j < tr.ts.length)
    (h : tr.ts.getD i 0 = tr.ts.getD j 0) :
    ∃ v, volSeries log sqrt decay floor w isLog tr = .ok v ∧ v.getD j none = v.getD i none := by
  obtain ⟨r, v, h1, h2, h3, h4, h5⟩ := volSeries_ok log sqrt decay floor w hw isLog tr
  refine ⟨v, h4, ?_⟩
  rw [h3, ewmst_getD _ _ _ _ _ _ (by rw [List.length_map]; omega), ewmst_getD _ _ _ _ _ _ (by rw [List.length_map]; omega),
    ewmstState_block decay h0 _ _ i j hij]
  intro k hk1 hk2
  have hi' : tr.ts.getD i 0 = tr.ts[i]'(by omega) := List.getD_eq_getElem _ _ _
  have hj' : tr.ts.getD j 0 = tr.ts[j]'(by omega) := List.getD_eq_getElem _ _ _
  have hk' : tr.ts.getD k 0 = tr.ts[k]'(by omega) := List.getD_eq_getElem _ _ _
  have a := sorted_get_le hs (i := i) (j := k) (by omega) (by omega) hk1
  have b := sorted_get_le hs (i := k) (j := j) (by omega) (by omega) hk2
  omega

/-- The first `k` trades of a table. -/
def KitTrades.firstN (k : Nat) (tr : KitTrades K) : KitTrades K := ⟨tr.ts.take k, tr.prices.take k, tr.amounts.take k, tr.sides.take k⟩

/-- **C148 (causal).** The volatility at a trade does not depend on later trades. -/
theorem C148_causal (log sqrt : K → K) (decay : Int → K) (floor : K) (w : Int) (hw : 0 < w) (isLog : Bool) (tr : KitTrades K)
    (hs : tr.ts.Pairwise (· ≤ ·)) (hlen : tr.ts.length = tr.prices.length) (k : Nat) :
    ∃ v, volSeries log sqrt decay floor w isLog tr = .ok v ∧ volSeries log sqrt decay floor w isLog (tr.firstN k) = .ok (v.take k) := by
  obtain ⟨r, v, h1, h2, h3, h4, h5⟩ := volSeries_ok log sqrt decay floor w hw isLog tr
  refine ⟨v, h4, ?_⟩
  have hc := C36_causal log tr.ts tr.prices w isLog hw hs hlen k r h1
  unfold volSeries KitTrades.firstN
  simp only
  rw [hc]
  simp only
  rw [h3, List.map_take, C35_ewmst]

/-- **C148 (target of a bar).** Whatever the kind of bars: the volatility joined to a bar is the last value of the volatility computed on the
trades up to and including the trade that closes the bar.  Trades of later bars play no part, not even those with the timestamp of the close
(tick, volume and dollar bars may close inside a block of equal timestamps). -/
theorem C148_target (log sqrt : K → K) (decay : Int → K) (h0 : decay 0 = 1) (floor : K) (w : Int) (hw : 0 < w) (isLog : Bool)
    (logB : K → K) (tr : KitTrades K) (kind : KitKind K) (n : Nat) (hn : 0 < n) (hl : tr.HasLength n) (hwf : kind.WellFormed n)
    (hs : tr.ts.Pairwise (· ≤ ·)) :
    ∃ v c, volSeries log sqrt decay floor w isLog tr = .ok v ∧ compBarClose logB tr kind = .ok c ∧
      ∀ (k : Nat) (t : Int) (i : Nat), c.1[k]? = some t → c.2[k]? = some (i : Int) →
        ∃ v', volSeries log sqrt decay floor w isLog (tr.firstN (i + 1)) = .ok v' ∧ (mergeAsof tr.ts v c.1)[k]? = v'.getLast? := by
  obtain ⟨hts, hp, ha, hsd⟩ := hl
  obtain ⟨c, hc, hcl, hval, hstamp⟩ := C74_closes logB tr kind n hn hts hp ha hwf
  obtain ⟨r, v, h1, h2, h3, h4, h5⟩ := volSeries_ok log sqrt decay floor w hw isLog tr
  refine ⟨v, c, h4, hc, ?_⟩
  intro k t i hk1 hk2
  obtain ⟨v1, e1, e2⟩ := C148_causal log sqrt decay floor w hw isLog tr hs (by omega) (i + 1)
  have : v1 = v := by rw [h4] at e1; exact (Except.ok.inj e1).symm
  subst this
  refine ⟨_, e2, ?_⟩
  have hkey : i < n ∧ searchRight tr.ts t ≠ 0 ∧ v1.getD (searchRight tr.ts t - 1) none = v1.getD i none := by
    by_cases hct : kind.closesAtTrades
    · have ht := hstamp hct k _ hk2
      rw [hk1, Int.toNat_natCast] at ht
      obtain ⟨hi, hit⟩ := List.getElem?_eq_some_iff.mp ht.symm
      have hlt : i < searchRight tr.ts t := (lt_searchRight hs t i hi).mpr (by omega)
      have hle := searchRight_le_length tr.ts t
      refine ⟨by omega, by omega, ?_⟩
      have hlast := (lt_searchRight hs t (searchRight tr.ts t - 1) (by omega)).mp (by omega)
      have hge := sorted_get_le hs (i := i) (j := searchRight tr.ts t - 1) (by omega) (by omega) (by omega)
      obtain ⟨v2, f1, f2⟩ := C148_block log sqrt decay h0 floor w hw isLog tr hs (by omega) i (searchRight tr.ts t - 1) (by omega) (by omega)
        (by rw [List.getD_eq_getElem _ _ hi, List.getD_eq_getElem _ _ (show searchRight tr.ts t - 1 < tr.ts.length by omega)]; omega)
      rw [h4] at f1
      rw [Except.ok.inj f1]
      exact f2
    · cases kind with
      | time I =>
        have hce : c = timeBarIndexer tr.ts I := by
          unfold compBarClose at hc
          exact (Except.ok.inj hc).symm
        have h2' : c.2 = c.1.map (fun x => (searchRight tr.ts x : Int) - 1) := by rw [hce]; rfl
        rw [h2', List.getElem?_map, hk1] at hk2
        simp only [Option.map_some, Option.some.injEq] at hk2
        have hle := searchRight_le_length tr.ts t
        have : searchRight tr.ts t - 1 = i := by omega
        exact ⟨by omega, by omega, by rw [this]⟩
      | tick T => exact absurd trivial hct
      | volume T => exact absurd trivial hct
      | dollar T => exact absurd trivial hct
      | cusum a b d => exact absurd trivial hct
  obtain ⟨hi, hne, heq⟩ := hkey
  have : asofAt tr.ts v1 t = v1.getD i none := by unfold asofAt; rw [if_neg hne, heq]
  unfold mergeAsof
  rw [List.getElem?_map, hk1, Option.map_some, this, List.getLast?_eq_getElem?, List.length_take, h5, hp,
    List.getElem?_take_of_lt (by omega), List.getD_eq_getElem _ _ (by omega : i < v1.length), show min (i + 1) n - 1 = i by omega,
    List.getElem?_eq_getElem (by omega : i < v1.length)]

/-- Six trades in four instants. -/
def volDemo : KitTrades ℚ := ⟨[0, 1, 1, 3, 3, 4], [4, 5, 6, 8, 2, 9], [1, 1, 1, 1, 1, 1], [1, 1, 1, 1, 1, 1]⟩

/-- Half of the weight is lost per unit of time (for the examples). -/
def halfDecay (dt : Int) : ℚ := 1 / ((2 ^ dt.toNat : Nat) : ℚ)

-- non-vacuity of `C148_target`: tick bars of two trades close at the first of the two trades of instant 3
example : volDemo.HasLength 6 ∧ (KitKind.tick (K := ℚ) 2).WellFormed 6 ∧ volDemo.ts.Pairwise (· ≤ ·) ∧ halfDecay 0 = 1 ∧
    (compBarClose id volDemo (.tick 2)).toOption = some ([0, 1, 3, 4], [0, 1, 3, 5]) ∧
    (volSeries id id halfDecay 0 1 false volDemo).toOption = some [none, some 0, some 0, some (1 / 288), some (1 / 288), some (4527 / 992)] := by
  refine ⟨⟨rfl, rfl, rfl, rfl⟩, trivial, by decide, by decide +kernel, by decide +kernel, by decide +kernel⟩

/-- **C148 (appending).** Later trades do not change the value joined to a bar that is not later than the last trade. -/
theorem C148_append (log sqrt : K → K) (decay : Int → K) (floor : K) (w : Int) (hw : 0 < w) (isLog : Bool) (tr more : KitTrades K) (n m : Nat)
    (hn : tr.HasLength n) (hm : more.HasLength m) (hs : (tr.ts ++ more.ts).Pairwise (· ≤ ·)) (stamps : List Int)
    (hlt : ∀ t ∈ stamps, ∀ u ∈ more.ts, t < u) :
    ∃ v v', volSeries log sqrt decay floor w isLog tr = .ok v ∧ volSeries log sqrt decay floor w isLog (tr.append more) = .ok v' ∧
      mergeAsof (tr.append more).ts v' stamps = mergeAsof tr.ts v stamps := by
  have hlen : (tr.append more).ts.length = (tr.append more).prices.length := by
    simp [KitTrades.append, hn.1, hn.2, hm.1, hm.2]
  obtain ⟨v', e1, e2⟩ := C148_causal log sqrt decay floor w hw isLog (tr.append more) hs hlen n
  have hf : (tr.append more).firstN n = tr := by
    unfold KitTrades.firstN KitTrades.append
    simp only
    rw [List.take_left' hn.1, List.take_left' hn.2, List.take_left' hn.3, List.take_left' hn.4]
  rw [hf] at e2
  refine ⟨_, v', e2, e1, ?_⟩
  unfold mergeAsof
  apply List.map_congr_left
  intro t ht
  unfold asofAt
  have hsr : searchRight (tr.append more).ts t = searchRight tr.ts t := searchRight_append_gt tr.ts more.ts t (hlt t ht)
  rw [hsr]
  split
  · rfl
  · have := searchRight_le_length tr.ts t
    rw [hn.1] at this
    rw [getD_take_lt _ _ _ _ (by omega)]

-- the bars closing at 1 and 3 against two later trades
example : (volSeries id id halfDecay 0 1 false (volDemo.append ⟨[5, 9], [7, 7], [1, 1], [1, 1]⟩)).toOption.map
      (fun v => mergeAsof (volDemo.append ⟨[5, 9], [7, 7], [1, 1], [1, 1]⟩).ts v [1, 3]) = some [some 0, some (1 / 288)] := by
  decide +kernel

/-- **C148 (sweeps do not count).** However many trades at whatever prices follow at the time of the last trade, the volatility stays what it
was after the first trade of that time. -/
theorem C148_sweep_ignored (log sqrt : K → K) (decay : Int → K) (h0 : decay 0 = 1) (floor : K) (w : Int) (hw : 0 < w) (isLog : Bool)
    (tr more : KitTrades K) (n m : Nat) (hn : tr.HasLength (n + 1)) (hm : more.HasLength m) (hs : tr.ts.Pairwise (· ≤ ·))
    (hlast : ∀ t ∈ more.ts, t = tr.ts.getD n 0) :
    ∃ v v', volSeries log sqrt decay floor w isLog tr = .ok v ∧ volSeries log sqrt decay floor w isLog (tr.append more) = .ok v' ∧
      v'.getLast? = v.getLast? := by
  have hs' : (tr.append more).ts.Pairwise (· ≤ ·) := by
    unfold KitTrades.append
    simp only
    rw [List.pairwise_append]
    have hmax : ∀ a ∈ tr.ts, a ≤ tr.ts.getD n 0 := by
      intro a ha
      obtain ⟨i, hi, rfl⟩ := List.getElem_of_mem ha
      rw [List.getD_eq_getElem _ _ (by rw [hn.1]; omega)]
      exact sorted_get_le hs (by omega) (by rw [hn.1]; omega) (by rw [hn.1] at hi; omega)
    refine ⟨hs, ?_, ?_⟩
    · rw [List.pairwise_iff_getElem]
      intro i j hi hj _
      rw [hlast _ (List.getElem_mem hi), hlast _ (List.getElem_mem hj)]
    · intro a ha b hb
      rw [hlast b hb]
      exact hmax a ha
  have hlen : (tr.append more).ts.length = (tr.append more).prices.length := by
    simp [KitTrades.append, hn.1, hn.2, hm.1, hm.2]
  obtain ⟨v', e1, e2⟩ := C148_causal log sqrt decay floor w hw isLog (tr.append more) hs' hlen (n + 1)
  have hf : (tr.append more).firstN (n + 1) = tr := by
    unfold KitTrades.firstN KitTrades.append
    simp only
    rw [List.take_left' hn.1, List.take_left' hn.2, List.take_left' hn.3, List.take_left' hn.4]
  rw [hf] at e2
  refine ⟨_, v', e2, e1, ?_⟩
  obtain ⟨r, u, u1, u2, u3, u4, u5⟩ := volSeries_ok log sqrt decay floor w hw isLog (tr.append more)
  have hvl : v'.length = n + 1 + m := by
    rw [u4] at e1
    rw [← Except.ok.inj e1, u5]
    simp [KitTrades.append, hn.2, hm.2]
  have htl : (tr.append more).ts.length = n + 1 + m := by simp [KitTrades.append, hn.1, hm.1]
  have hget : (tr.append more).ts.getD (n + m) 0 = (tr.append more).ts.getD n 0 := by
    unfold KitTrades.append
    simp only
    have hN : (tr.ts ++ more.ts).getD n 0 = tr.ts.getD n 0 := List.getD_append _ _ _ _ (by rw [hn.1]; omega)
    rw [hN]
    rcases Nat.eq_zero_or_pos m with h | h
    · rw [h, Nat.add_zero, hN]
    · rw [List.getD_append_right _ _ _ _ (by rw [hn.1]; omega), List.getD_eq_getElem _ _ (show n + m - tr.ts.length < more.ts.length by rw [hn.1, hm.1]; omega)]
      exact hlast _ (List.getElem_mem _)
  obtain ⟨v2, f1, f2⟩ := C148_block log sqrt decay h0 floor w hw isLog (tr.append more) hs' hlen n (n + m) (by omega) (by rw [htl]; omega)
    hget.symm
  rw [e1] at f1
  have := Except.ok.inj f1
  subst this
  rw [List.getLast?_eq_getElem?, List.getLast?_eq_getElem?, List.length_take, hvl, show min (n + 1) (n + 1 + m) - 1 = n by omega,
    List.getElem?_take_of_lt (by omega), show n + 1 + m - 1 = n + m by omega, List.getElem?_eq_getElem (by omega), List.getElem?_eq_getElem (by omega)]
  rw [List.getD_eq_getElem _ _ (by omega), List.getD_eq_getElem _ _ (by omega)] at f2
  rw [f2]

-- a fall from 8 to 2 (and back to 100) within the instant 3
example : (volSeries id id halfDecay 0 1 false ⟨[0, 1, 1, 3, 3, 3], [4, 5, 6, 8, 2, 100], [1, 1, 1, 1, 1, 1], [1, 1, 1, 1, 1, 1]⟩).toOption.map
      List.getLast? = some (some (some (1 / 288))) := by decide +kernel

/-- Sums of the estimate while no return is present. -/
theorem ewmstState_missing (decay : Int → K) (h0 : decay 0 = 1) (h1 : ∀ dt, 0 < dt → 0 ≤ decay dt ∧ decay dt < 1) (ts : List Int)
    (hs : ts.Pairwise (· ≤ ·)) (y : List (Option K)) (i : Nat) (hi : i < ts.length) (hy : ∀ j ≤ i, y.getD j none = none) :
    (ewmstState decay ts y i).sy = 0 ∧ (ewmstState decay ts y i).sy2 = 0 ∧ 0 ≤ (ewmstState decay ts y i).sw ∧
    (0 < (ewmstState decay ts y i).sw ↔ ts.getD 0 0 < ts.getD i 0) := by
  induction i with
  | zero => simp [ewmstState]
  | succ i ih =>
    obtain ⟨a, b, c, d⟩ := ih (by omega) (fun j hj => hy j (by omega))
    have hle : ts.getD i 0 ≤ ts.getD (i + 1) 0 := by
      rw [List.getD_eq_getElem _ _ (by omega : i < ts.length), List.getD_eq_getElem _ _ hi]
      exact sorted_get_le hs (by omega) hi (by omega)
    have h0i : ts.getD 0 0 ≤ ts.getD i 0 := by
      rw [List.getD_eq_getElem _ _ (by omega : 0 < ts.length), List.getD_eq_getElem _ _ (by omega : i < ts.length)]
      exact sorted_get_le hs (by omega) (by omega) (by omega)
    rw [ewmstState]
    simp only [hy (i + 1) (le_refl _), a, b, orZero, sqOrZero, mul_zero, add_zero, true_and]
    unfold decayAt
    rw [Nat.add_sub_cancel]
    rcases hle.eq_or_lt with h | h
    · rw [← h, sub_self, h0]
      simpa using ⟨c, d⟩
    · obtain ⟨q0, q1⟩ := h1 (ts.getD (i + 1) 0 - ts.getD i 0) (by omega)
      have : 0 < 1 - decay (ts.getD (i + 1) 0 - ts.getD i 0) + decay (ts.getD (i + 1) 0 - ts.getD i 0) * (ewmstState decay ts y i).sw := by
        have := mul_nonneg q0 c
        linarith
      exact ⟨this.le, fun _ => by omega, fun _ => this⟩

/-- **C148 (first window).** Before one window has passed there is no return.  The target is nevertheless a number, the floor, at every trade
later than the first: only the trades at the time of the first have no target. -/
theorem C148_warmup (log sqrt : K → K) (hsq : sqrt 0 = 0) (decay : Int → K) (h0 : decay 0 = 1) (h1 : ∀ dt, 0 < dt → 0 ≤ decay dt ∧ decay dt < 1)
    (floor : K) (hf : 0 ≤ floor) (w : Int) (hw : 0 < w) (isLog : Bool) (tr : KitTrades K) (hs : tr.ts.Pairwise (· ≤ ·))
    (hlen : tr.ts.length = tr.prices.length) (i : Nat) (hi : i < tr.ts.length) (hearly : tr.ts.getD i 0 < tr.ts.getD 0 0 + w) :
    ∃ v, volSeries log sqrt decay floor w isLog tr = .ok v ∧ v.getD i none = if tr.ts.getD i 0 = tr.ts.getD 0 0 then none else some floor := by
  obtain ⟨r, v, r1, r2, r3, r4, r5⟩ := volSeries_ok log sqrt decay floor w hw isLog tr
  refine ⟨v, r4, ?_⟩
  obtain ⟨r', g1, _, g3⟩ := laggedReturns_get log tr.ts tr.prices w isLog hw
  rw [r1] at g1
  have := Except.ok.inj g1
  subst this
  have hge : ∀ j ≤ i, tr.ts.getD j 0 ≤ tr.ts.getD i 0 := by
    intro j hj
    rw [List.getD_eq_getElem _ _ (by omega : j < tr.ts.length), List.getD_eq_getElem _ _ hi]
    exact sorted_get_le hs (by omega) hi hj
  have hy : ∀ j ≤ i, (r.map Ext.toOpt).getD j none = none := by
    intro j hj
    have hjl : j < searchLeft tr.ts (tr.ts.getD 0 0 + w) := by
      rw [lt_searchLeft hs _ j (by omega)]
      have := hge j hj
      rw [List.getD_eq_getElem _ _ (by omega : j < tr.ts.length)] at this
      omega
    rw [List.getD_eq_getElem?_getD, List.getElem?_map, g3 j (by omega), if_pos hjl]
    rfl
  obtain ⟨a, b, c, d⟩ := ewmstState_missing decay h0 h1 tr.ts hs (r.map Ext.toOpt) i hi hy
  rw [r3, ewmst_getD _ _ _ _ _ _ (by rw [List.length_map]; omega)]
  unfold ewmstVal
  simp only [a, b, zero_div, mul_zero, sub_zero, lt_irrefl, and_false, if_false, hsq]
  have := hge 0 (Nat.zero_le _)
  by_cases h : tr.ts.getD i 0 = tr.ts.getD 0 0
  · rw [if_pos h, if_neg]
    rw [gt_iff_lt, d]
    omega
  · rw [if_neg h, if_pos (d.mpr (by omega))]
    split
    · rfl
    · rename_i h2
      rw [le_antisymm (not_lt.mp h2) hf]

-- the hypotheses, and the targets of the first window of length 5
example : (∀ dt : Int, 0 < dt → 0 ≤ halfDecay dt ∧ halfDecay dt < 1) ∧
    (volSeries id id halfDecay (1 / 100) 5 false volDemo).toOption = some [none, some (1 / 100), some (1 / 100), some (1 / 100), some (1 / 100), some (1 / 100)] := by
  refine ⟨fun dt h => ?_, by decide +kernel⟩
  unfold halfDecay
  have h2 : 1 < 2 ^ dt.toNat := Nat.one_lt_two_pow (by omega)
  have h3 : (1 : ℚ) < ((2 ^ dt.toNat : Nat) : ℚ) := by exact_mod_cast h2
  exact ⟨by positivity, by rw [div_lt_one (by linarith)]; exact h3⟩

/-- **C148 (violation: a steady price has a volatility).** The missing returns of the first window are averaged in as zeros: a price that grows by
the same factor at every step, whose returns are all equal, gets a positive target that fades only with the decay. -/
theorem C148_steady_price :
    (laggedReturns id [0, 1, 2, 3, 4] [(1 : ℚ), 2, 4, 8, 16] 2 false).toOption = some [.nan, .nan, .fin 3, .fin 3, .fin 3] ∧
    (volSeries id id halfDecay 0 2 false ⟨[0, 1, 2, 3, 4], [1, 2, 4, 8, 16], [1, 1, 1, 1, 1], [1, 1, 1, 1, 1]⟩).toOption =
      some [none, some 0, some (9 / 2), some (27 / 14), some (9 / 10)] := by
  decide +kernel

end FinML
