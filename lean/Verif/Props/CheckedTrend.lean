/-
C157: array accesses and uninitialised entries of the price–volume correlation and of the ADX.
-/
import Verif.Props.CheckedWindows

set_option linter.unusedSectionVars false

namespace FinML

variable {K : Type} [Field K] [LinearOrder K] [IsStrictOrderedRing K]

/-! ## Correlation -/

theorem mapM_eq_some_map {α β : Type} (f : α → Option β) (g : α → β) (l : List α) (h : ∀ a ∈ l, f a = some (g a)) : l.mapM f = some (l.map g) := by
  induction l with
  | nil => rfl
  | cons a l ih =>
    rw [List.mapM_cons, h a (by simp), ih (fun b hb => h b (by simp [hb]))]
    rfl

theorem simpleReturn_step (price : List (Option K)) (i : Nat) (hi : 1 ≤ i) :
    simpleReturn price i = stepReturn (price.getD i none) (price.getD (i - 1) none) := by
  unfold simpleReturn
  rw [if_neg (by omega)]
  cases price.getD i none <;> cases price.getD (i - 1) none <;> rfl

theorem neighboursChk_eq (bad : Option K → Option K → Bool) (xs : List (Option K)) (w i : Nat) (hw : w ≤ i) (hi : i < xs.length) :
    neighboursChk bad xs w i = some ((List.range' (i + 1 - w) (w - 1)).all (fun j => !bad (xs.getD (j + 1) none) (xs.getD j none))) := by
  unfold neighboursChk
  rw [mapM_eq_some_map _ (fun j => !bad (xs.getD (j + 1) none) (xs.getD j none))]
  · simp [List.all_map, Function.comp_def]
  · intro j hj
    rw [List.mem_range'_1] at hj
    rw [show ((j : Int) + 1) = ((j + 1 : Nat) : Int) by omega, rd_getD xs none (j + 1) (by omega), rd_getD xs none j (by omega)]
    rfl

theorem corrWindowChk_eq (sqrt : K → K) (price volume : List (Option K)) (w i : Nat) (hw : w ≤ i) (hi : i < price.length) (hv : price.length ≤ volume.length) :
    corrWindowChk sqrt (filled none price.length price.length (simpleReturn price)) volume w i = some (corrOf sqrt (validPairs price volume w i)) := by
  unfold corrWindowChk
  rw [mapM_eq_some_map _ (fun j => bothSome (simpleReturn price j) (volume.getD j none))]
  · simp only [Option.map_some, validPairs, List.filterMap_map]
    rfl
  · intro j hj
    rw [List.mem_range'_1] at hj
    unfold pairChk
    rw [rd_filled _ _ _ _ _ (by omega) (by omega)]
    simp only [Option.join_some, Option.bind_some]
    rw [rd_getD volume none j (by omega)]
    cases simpleReturn price j with
    | none => rfl
    | some x => rfl

theorem corrValChk_eq (sqrt : K → K) (price volume : List (Option K)) (w i : Nat) (hw : w ≤ i) (hi : i < price.length) (hv : price.length ≤ volume.length) :
    corrValChk sqrt price volume (filled none price.length price.length (simpleReturn price)) w i = some (corrAt sqrt price volume w i) := by
  unfold corrValChk corrAt
  rw [rd_filled _ _ _ _ _ (by omega) (by omega), rd_getD volume none i (by omega), if_neg (show ¬ i < w by omega)]
  simp only [Option.join_some, Option.bind_some, corrWindowChk_eq sqrt price volume w i hw hi hv,
    neighboursChk_eq _ price w i hw hi, neighboursChk_eq _ volume w i hw (by omega), Option.bind_eq_bind]
  by_cases hr : (simpleReturn price i).isNone
  · simp [hr]
  by_cases hvn : (volume.getD i none).isNone
  · simp only [hr, hvn, if_true, or_true, Bool.false_eq_true, if_false]
  simp only [hr, hvn, or_self, Bool.false_eq_true, if_false]
  by_cases h4 : 4 ≤ i ∧ i < 10
  · rw [if_pos h4]
    have e1 : noDecrease price w i = (List.range' (i + 1 - w) (w - 1)).all (fun j => !optLe (price.getD (j + 1) none) (price.getD j none)) := rfl
    have e2 : noDecrease volume w i = (List.range' (i + 1 - w) (w - 1)).all (fun j => !optLe (volume.getD (j + 1) none) (volume.getD j none)) := rfl
    have e3 : noIncrease volume w i = (List.range' (i + 1 - w) (w - 1)).all (fun j => !optLe (volume.getD j none) (volume.getD (j + 1) none)) := rfl
    rw [← e1, ← e2, ← e3]
    simp only [h4.1, h4.2, true_and]
    split
    · rfl
    · split <;> rfl
  · rw [if_neg h4]
    have h4' : ∀ P : Prop, ¬ (4 ≤ i ∧ i < 10 ∧ P) := fun P h => h4 ⟨h.1, h.2.1⟩
    rw [if_neg (h4' _), if_neg (h4' _)]

/-- **C157 (`rolling_price_volume_correlation`).** With a volume for every price the kernel stays inside the arrays, reads no return
before it is written and writes every entry exactly when there is a price. -/
theorem C157_correlation (sqrt : K → K) (price volume : List (Option K)) (w : Nat) (hv : price.length ≤ volume.length) :
    (price ≠ [] → correlationChk sqrt price volume w = some ((priceVolumeCorrelation sqrt price volume w).map some)) ∧
    (price = [] → correlationChk sqrt price volume w = none) := by
  constructor
  · intro hp
    have hl : 0 < price.length := List.length_pos_iff.mpr hp
    unfold correlationChk priceVolumeCorrelation
    set g := simpleReturn price with hg
    have hw0 : wr (List.replicate price.length none) 0 (some (none : Option K)) = some (filled none price.length 1 g) := by
      rw [filled_zero _ _ g]
      exact wr_filled none price.length 0 g hl
    have hr := fillLoop_filled (returnStepChk price) none price.length g (fun _ => ()) (price.length - 1) 1 (by omega) (by
      intro i h1 h2
      unfold returnStepChk
      rw [rd_getD price none i (by omega), rd_pred_getD price none i h1 (by omega), hg, simpleReturn_step price i h1]
      rfl)
    rw [show 1 + (price.length - 1) = price.length by omega] at hr
    simp only [hw0, Option.bind_eq_bind, Option.bind_some, hr]
    rw [filled_default price.length w none (corrAt sqrt price volume w) (fun j hj => by unfold corrAt; rw [if_pos hj])]
    by_cases hw : w ≤ price.length
    · have hf := fillLoop_filled (fun _ i _ => (corrValChk sqrt price volume (filled none price.length price.length g) w i).map (fun r => (r, ())))
        (some none) price.length (corrAt sqrt price volume w) (fun _ => ()) (price.length - w) w (by omega) (by
          intro i h1 h2
          rw [hg, corrValChk_eq sqrt price volume w i h1 (by omega) hv]
          rfl)
      rw [hf, filled_all _ _ _ (by omega)]
    · rw [show price.length - w = 0 by omega]
      simp only [List.range'_zero, fillLoop]
      rw [filled_all _ _ _ (by omega)]
  · rintro rfl
    rfl

/-! ## ADX -/

theorem smoothChk_eq (f g : Nat → K) (size len : Nat) (hl : 1 ≤ len) (hfg : ∀ i, 1 ≤ i → g i = f i) :
    smoothChk (filled (some 0) size size g) size len = some (filled (some 0) size size (fun i => if i < len then 0 else wilderSum f len (i - len))) := by
  unfold smoothChk
  set s : Nat → K := fun i => if i < len then 0 else wilderSum f len (i - len) with hs
  by_cases hsz : len + 1 ≤ size
  · rw [if_pos hsz, sumLoop_eq _ f _ (fun k hk => by
      rw [List.mem_range'_1] at hk
      rw [rd_filled _ _ _ _ _ (by omega) (by omega), Option.join_some, hfg k hk.1])]
    simp only [Option.bind_eq_bind, Option.bind_some]
    rw [filled_default size len 0 s (fun j hj => by simp [hs, hj])]
    have hw := wr_filled (some 0) size len s (by omega)
    have e : s len = ((List.range' 1 len).map f).sum := by simp [hs, wilderSum]
    rw [e] at hw
    rw [hw]
    simp only [Option.bind_some]
    have hf := fillLoop_filled (smoothStepChk (filled (some 0) size size g) len) (some 0) size s (fun _ => ()) (size - (len + 1)) (len + 1) (by omega) (by
      intro i h1 h2
      unfold smoothStepChk
      rw [show ((i : Int) - 1) = ((i - 1 : Nat) : Int) by omega, rd_filled _ _ _ _ _ (by omega) (by omega), rd_filled _ _ _ _ _ (by omega) (by omega),
        hfg i (by omega)]
      obtain ⟨m, rfl⟩ : ∃ m, i = len + (m + 1) := ⟨i - (len + 1), by omega⟩
      simp [hs, show ¬ len + (m + 1) - 1 < len by omega, show len + (m + 1) - 1 - len = m by omega, show ¬ len + (m + 1) < len by omega, wilderSum])
    rw [hf, show len + 1 + (size - (len + 1)) = size by omega]
  · rw [if_neg hsz, filled_default size size 0 s (fun j hj => by simp [hs, show j < len by omega])]

theorem fill_from {g : Nat → K} (step : List (Option K) → Nat → Unit → Option (K × Unit)) (size a : Nat) (h0 : ∀ j, j < a → g j = 0)
    (h : ∀ i, a ≤ i → i < size → ∀ o, step o i () = some (g i, ())) :
    fillLoop step (List.range' a (size - a)) () (List.replicate size (some 0)) = some (filled (some 0) size size g) := by
  rw [filled_default size a 0 g h0]
  by_cases ha : a ≤ size
  · have := fillLoop_filled step (some 0) size g (fun _ => ()) (size - a) a (by omega) (fun i h1 h2 => h i h1 (by omega) _)
    rw [this, show a + (size - a) = size by omega]
  · rw [show size - a = 0 by omega]
    simp only [List.range'_zero, fillLoop]
    rw [filled_all _ _ _ (by omega), filled_all _ _ _ (le_refl _)]

theorem adxLastChk_eq (f : Nat → K) (size len : Nat) (hl : 1 ≤ len) :
    adxLastChk (filled (some 0) size size f) size len =
      some ((tabulate size (fun i => if i + 1 < 2 * len then 0 else adxState f len (i + 1 - 2 * len))).map some) := by
  unfold adxLastChk
  set s : Nat → K := fun i => if i + 1 < 2 * len then 0 else adxState f len (i + 1 - 2 * len) with hs
  by_cases hsz : 2 * len ≤ size
  · rw [if_pos hsz, sumLoop_eq _ f _ (fun k hk => by
      rw [List.mem_range'_1] at hk
      rw [rd_filled _ _ _ _ _ (by omega) (by omega), Option.join_some])]
    simp only [Option.bind_eq_bind, Option.bind_some]
    rw [filled_default size (2 * len - 1) 0 s (fun j hj => by simp [hs, show j + 1 < 2 * len by omega])]
    have hw := wr_filled (some 0) size (2 * len - 1) s (by omega)
    have e : s (2 * len - 1) = ((List.range' len len).map f).sum / (len : K) := by
      simp only [hs, show ¬ 2 * len - 1 + 1 < 2 * len by omega, if_false, show 2 * len - 1 + 1 - 2 * len = 0 by omega, adxState]
    rw [e, show (((2 * len - 1 : Nat)) : Int) = 2 * (len : Int) - 1 by omega, show 2 * len - 1 + 1 = 2 * len by omega] at hw
    rw [hw]
    simp only [Option.bind_some]
    have hf := fillLoop_filled (adxStepChk (filled (some 0) size size f) len) (some 0) size s (fun _ => ()) (size - 2 * len) (2 * len) (by omega) (by
      intro i h1 h2
      unfold adxStepChk
      rw [show ((i : Int) - 1) = ((i - 1 : Nat) : Int) by omega, rd_filled _ _ _ _ _ (by omega) (by omega), rd_filled _ _ _ _ _ (by omega) (by omega)]
      obtain ⟨m, rfl⟩ : ∃ m, i = 2 * len + m := ⟨i - 2 * len, by omega⟩
      simp [hs, show ¬ 2 * len + m - 1 + 1 < 2 * len by omega, show 2 * len + m - 1 + 1 - 2 * len = m by omega,
        show ¬ 2 * len + m + 1 < 2 * len by omega, show 2 * len + m + 1 - 2 * len = m + 1 by omega, adxState])
    rw [hf, filled_all _ _ _ (by omega)]
  · rw [if_neg hsz, filled_default size size 0 s (fun j hj => by simp [hs, show j + 1 < 2 * len by omega]), filled_all _ _ _ (le_refl _)]

/-- **C157 (`adx_core`).** For a window of at least one and at least two bars the kernel stays inside the arrays exactly when there is a
low for every high and a close for every bar but the last. -/
theorem C157_adx (high low close : List K) (len : Nat) (hl : 1 ≤ len) :
    (high.length ≤ low.length → high.length ≤ close.length + 1 → adxChk high low close len = some ((adxCore high low close len).map some)) ∧
    (2 ≤ high.length → low.length < high.length ∨ close.length + 1 < high.length → adxChk high low close len = none) := by
  constructor
  · intro h1 h2
    unfold adxChk adxCore
    have z : ∀ f : Nat → K, ∀ i, 1 ≤ i → (fun i => if i = 0 then 0 else f i) i = f i := fun f i hi => if_neg (by omega)
    have e1 := fill_from (g := fun i => if i = 0 then 0 else trAt high low close i) (adxTrStepChk high low close) high.length 1
      (fun j hj => if_pos (by omega)) (fun i h3 h4 o => by
        unfold adxTrStepChk
        rw [rd_getD high 0 i h4, rd_getD low 0 i (by omega), rd_pred_getD close 0 i h3 (by omega)]
        simp [show i ≠ 0 by omega, trAt])
    have e2 := fill_from (g := fun i => if i = 0 then 0 else plusDm high low i)
      (adxDmStepChk (fun hd ld => if hd > ld ∧ hd > 0 then hd else 0) high low) high.length 1
      (fun j hj => if_pos (by omega)) (fun i h3 h4 o => by
        unfold adxDmStepChk
        rw [rd_getD high 0 i h4, rd_pred_getD high 0 i h3 (by omega), rd_pred_getD low 0 i h3 (by omega), rd_getD low 0 i (by omega)]
        simp [show i ≠ 0 by omega, plusDm])
    have e3 := fill_from (g := fun i => if i = 0 then 0 else minusDm high low i)
      (adxDmStepChk (fun hd ld => if ld > hd ∧ ld > 0 then ld else 0) high low) high.length 1
      (fun j hj => if_pos (by omega)) (fun i h3 h4 o => by
        unfold adxDmStepChk
        rw [rd_getD high 0 i h4, rd_pred_getD high 0 i h3 (by omega), rd_pred_getD low 0 i h3 (by omega), rd_getD low 0 i (by omega)]
        simp [show i ≠ 0 by omega, minusDm])
    have di : ∀ f : Nat → K, fillLoop (diStepChk
        (filled (some 0) high.length high.length (fun i => if i < len then 0 else wilderSum (trAt high low close) len (i - len)))
        (filled (some 0) high.length high.length (fun i => if i < len then 0 else wilderSum f len (i - len))))
        (List.range' len (high.length - len)) () (List.replicate high.length (some 0)) =
        some (filled (some 0) high.length high.length (fun i => if i < len then 0 else diAt (trAt high low close) f len (i - len))) := by
      intro f
      apply fill_from
      · intro j hj; exact if_pos hj
      · intro i h3 h4 o
        unfold diStepChk
        rw [rd_filled _ _ _ _ _ h4 h4, rd_filled _ _ _ _ _ h4 h4]
        simp [show ¬ i < len by omega, diAt]
    have dx : fillLoop (dxStepChk
        (filled (some 0) high.length high.length (fun i => if i < len then 0 else diAt (trAt high low close) (plusDm high low) len (i - len)))
        (filled (some 0) high.length high.length (fun i => if i < len then 0 else diAt (trAt high low close) (minusDm high low) len (i - len))))
        (List.range' len (high.length - len)) () (List.replicate high.length (some 0)) =
        some (filled (some 0) high.length high.length (dxAt high low close len)) := by
      apply fill_from
      · intro j hj; exact if_pos hj
      · intro i h3 h4 o
        unfold dxStepChk
        rw [rd_filled _ _ _ _ _ h4 h4, rd_filled _ _ _ _ _ h4 h4]
        simp [show ¬ i < len by omega, dxAt]
    simp only [e1, e2, e3, Option.bind_eq_bind, Option.bind_some, smoothChk_eq _ _ high.length len hl (z _), di, dx]
    exact adxLastChk_eq _ _ _ hl
  · intro h2 h
    unfold adxChk
    have : fillLoop (adxTrStepChk high low close) (List.range' 1 (high.length - 1)) () (List.replicate high.length (some 0)) = none := by
      apply fillLoop_none _ _ _ _ (high.length - 1) (by rw [List.mem_range'_1]; omega)
      intro o s
      unfold adxTrStepChk
      rw [rd_getD high 0 _ (by omega)]
      rcases h with h | h
      · rw [rd_beyond low _ (by omega)]; rfl
      · rw [show ((high.length - 1 : Nat) : Int) - 1 = ((high.length - 2 : Nat) : Int) by omega, rd_beyond close _ (by omega)]
        cases rd low ((high.length - 1 : Nat) : Int) <;> rfl
    simp only [this]
    rfl

/-- Two bars without closes are read outside, with one close they are not. -/
example : adxChk [(2 : ℚ), 3, 5] [1, 1, 2] [] 1 = none ∧ adxChk [(2 : ℚ), 3, 5] [1, 1, 2] [1, 2] 1 = some [some 0, some 100, some 100] := by decide +kernel

example : correlationChk (fun x : ℚ => x) [] [] 2 = none ∧
    correlationChk (fun x : ℚ => x) [some 1, some 2, some 3, some 4, some 5] [some 1, some 2, some 4, some 5, some 9] 2 =
      some [some none, some none, some (some (-1)), some (some (-1)), some (some 1)] := by decide +kernel

end FinML
