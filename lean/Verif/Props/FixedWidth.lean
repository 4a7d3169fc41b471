/-
C94: which values survive the fixed-width integer storage of footprints.
-/
import Verif.Model.FixedWidth
import Verif.Props.Footprint
import Mathlib.Tactic.Linarith
import Mathlib.Tactic.Ring
import Mathlib.Data.Rat.Floor

set_option linter.unusedSectionVars false

namespace FinML

variable {K : Type} [Field K] [LinearOrder K]

/-- A stored value is in range and congruent to the value; it is the value exactly when that is in range. -/
theorem storeInt_spec (b : Nat) (hb : 1 ≤ b) (x : Int) :
    -2 ^ (b - 1) ≤ storeInt b x ∧ storeInt b x < 2 ^ (b - 1) ∧ (∃ k : Int, storeInt b x = x + k * 2 ^ b) ∧
    (storeInt b x = x ↔ -2 ^ (b - 1) ≤ x ∧ x < 2 ^ (b - 1)) := by
  obtain ⟨c, rfl⟩ : ∃ c, b = c + 1 := ⟨b - 1, by omega⟩
  have hp : (0 : Int) < 2 ^ (c + 1) := by positivity
  have h2 : (2 : Int) ^ (c + 1) = 2 * 2 ^ c := by ring
  have e := Int.emod_add_mul_ediv (x + 2 ^ c) (2 ^ (c + 1))
  have l := Int.emod_nonneg (x + 2 ^ c) hp.ne'
  have u := Int.emod_lt_of_pos (x + 2 ^ c) hp
  have a1 : -2 ^ (c + 1 - 1) ≤ storeInt (c + 1) x := by
    unfold storeInt; simp only [Nat.add_sub_cancel]; linarith
  have a2 : storeInt (c + 1) x < 2 ^ (c + 1 - 1) := by
    unfold storeInt; simp only [Nat.add_sub_cancel]; linarith
  refine ⟨a1, a2, ⟨-((x + 2 ^ c) / 2 ^ (c + 1)), ?_⟩, fun h => ?_, fun ⟨h0, h1⟩ => ?_⟩
  · unfold storeInt; simp only [Nat.add_sub_cancel]; linarith
  · rw [h] at a1 a2; exact ⟨a1, a2⟩
  · simp only [Nat.add_sub_cancel] at h0 h1
    unfold storeInt; simp only [Nat.add_sub_cancel]
    rw [Int.emod_eq_of_lt (by linarith) (by linarith)]; ring

example : storeInt 16 32768 = -32768 ∧ storeInt 16 (-5) = -5 ∧ storeInt 32 (2 ^ 31 + 7) = -2 ^ 31 + 7 := by
  decide +kernel

/-- **C94 (counts).** For every bar the stored imbalance totals are the numbers of flagged levels modulo 65536,
and equal to them exactly when these are below 65536. -/
theorem C94_counts (rnd : K → Int) (m lowP highP : K) (ts : List (K × K × Int))
    (fp : Footprint K) (hfp : footprintBar rnd m lowP highP ts = .ok fp) :
    (storeFootprint fp).buyImbSum = fp.stats.buyImb.count true % 65536 ∧
    (storeFootprint fp).sellImbSum = fp.stats.sellImb.count true % 65536 ∧
    ((storeFootprint fp).buyImbSum = fp.stats.buyImb.count true ↔ fp.stats.buyImb.count true < 65536) ∧
    ((storeFootprint fp).sellImbSum = fp.stats.sellImb.count true ↔ fp.stats.sellImb.count true < 65536) := by
  have h : fp.buyImbSum = fp.stats.buyImb.count true % 65536 ∧
      fp.sellImbSum = fp.stats.sellImb.count true % 65536 := by
    unfold footprintBar at hfp
    simp only at hfp
    split at hfp
    · cases hfp
    · cases Except.ok.inj hfp
      exact ⟨rfl, rfl⟩
  refine ⟨h.1, h.2, ?_, ?_⟩
  · show fp.buyImbSum = _ ↔ _
    rw [h.1]; omega
  · show fp.sellImbSum = _ ↔ _
    rw [h.2]; omega

example : ((footprintBar (fun x : ℚ => ⌊x⌋) 3 0 2 [(0, 1, 1), (1, 1, 1), (2, 1, 1)]).map (fun fp =>
    (fp.stats.buyImb.count true, (storeFootprint fp).buyImbSum))).toOption = some (2, 2) := by decide +kernel

/-- **C94 (run).** The stored longest run is the longest run exactly when that is at most 32767 levels (32768 for
sells). -/
theorem C94_run (fp : Footprint K) :
    (storeFootprint fp).maxRun = fp.stats.maxRunSigned ↔
      -32768 ≤ fp.stats.maxRunSigned ∧ fp.stats.maxRunSigned ≤ 32767 := by
  have := (storeInt_spec 16 (by norm_num) fp.stats.maxRunSigned).2.2.2
  show storeInt 16 _ = _ ↔ _
  rw [this]; norm_num; omega

/-- **C94 (levels).** The stored price levels are the levels exactly when the low and the high of the bar lie
within `[-2^31, 2^31)` ticks. -/
theorem C94_levels (rnd : K → Int) (m lowP highP : K) (ts : List (K × K × Int))
    (fp : Footprint K) (hfp : footprintBar rnd m lowP highP ts = .ok fp) (hlh : rnd lowP ≤ rnd highP) :
    (storeFootprint fp).priceLevels = fp.priceLevels ↔ -2 ^ 31 ≤ rnd lowP ∧ rnd highP < 2 ^ 31 := by
  have h : fp.priceLevels = (List.range (rnd highP - rnd lowP + 1).toNat).map
      (fun k : Nat => rnd lowP + (k : Int)) := by
    unfold footprintBar at hfp
    simp only at hfp
    split at hfp
    · cases hfp
    · cases Except.ok.inj hfp
      rfl
  have key : (storeFootprint fp).priceLevels = fp.priceLevels ↔
      ∀ x ∈ fp.priceLevels, storeInt 32 x = x := by
    show List.map _ _ = _ ↔ _
    conv_lhs => rhs; rw [← List.map_id fp.priceLevels]
    rw [List.map_inj_left]; rfl
  rw [key, h]
  constructor
  · intro hx
    have h1 := (storeInt_spec 32 (by norm_num) _).2.2.2.1 (hx (rnd lowP)
      (List.mem_map.2 ⟨0, List.mem_range.2 (by omega), by simp⟩))
    have h2 := (storeInt_spec 32 (by norm_num) _).2.2.2.1 (hx (rnd highP)
      (List.mem_map.2 ⟨(rnd highP - rnd lowP).toNat, List.mem_range.2 (by omega), by
        rw [Int.toNat_of_nonneg (by omega)]; ring⟩))
    exact ⟨h1.1, h2.2⟩
  · rintro ⟨h0, h1⟩ x hx
    obtain ⟨k, hk, rfl⟩ := List.mem_map.1 hx
    have := List.mem_range.1 hk
    have hk' : (k : Int) ≤ rnd highP - rnd lowP := by omega
    refine (storeInt_spec 32 (by norm_num) _).2.2.2.2 ⟨?_, ?_⟩
    · show (-2 ^ 31 : Int) ≤ _
      have : (0 : Int) ≤ k := by positivity
      linarith
    · show _ < (2 ^ 31 : Int)
      linarith

example : ((footprintBar (fun x : ℚ => ⌊x⌋) 3 0 2 [(0, 1, 1), (1, 1, 1), (2, 1, 1)]).map (fun fp =>
    ((storeFootprint fp).priceLevels, fp.priceLevels))).toOption = some ([0, 1, 2], [0, 1, 2]) := by decide +kernel

/-- **C94 (COT).** The stored COT level is the stored form of the COT level. -/
theorem C94_cot (rnd : K → Int) (m lowP highP : K) (ts : List (K × K × Int))
    (fp : Footprint K) (hfp : footprintBar rnd m lowP highP ts = .ok fp) :
    (storeFootprint fp).cot = storeInt 32 fp.stats.cot := by
  have h : fp.stats.cot =
      fp.priceLevels.getD (argmax (List.zipWith (· + ·) fp.lv.buyVol fp.lv.sellVol)) 0 := by
    unfold footprintBar at hfp
    simp only at hfp
    split at hfp
    · cases hfp
    · cases Except.ok.inj hfp
      rfl
  rw [h]
  show (List.map (storeInt 32) fp.priceLevels).getD _ 0 = _
  generalize argmax (List.zipWith (· + ·) fp.lv.buyVol fp.lv.sellVol) = i
  rw [List.getD_eq_getElem?_getD, List.getD_eq_getElem?_getD, List.getElem?_map]
  cases fp.priceLevels[i]? with
  | none => decide
  | some x => rfl

example : ((footprintBar (fun x : ℚ => ⌊x * 100⌋) 3 (2147483647 / 100) (2147483649 / 100)
    [((2147483648 / 100 : ℚ), 5, 1)]).map (fun fp => (fp.stats.cot, (storeFootprint fp).cot))).toOption =
    some (2147483648, -2147483648) := by decide +kernel

/-! ## Violations -/

theorem run_replicate_one (k : Nat) : ∀ r : Nat, 1 ≤ r →
    (List.replicate k (1 : Int)).foldl runStep ⟨r, 1, r, 1⟩ = ⟨r + k, 1, r + k, 1⟩ := by
  induction k with
  | zero => intro r _; rfl
  | succ k ih =>
    intro r hr
    rw [List.replicate_succ, List.foldl_cons]
    have : runStep ⟨r, 1, r, 1⟩ 1 = ⟨r + 1, 1, r + 1, 1⟩ := by simp [runStep]
    rw [this, ih (r + 1) (by omega)]
    simp only [RunState.mk.injEq]
    refine ⟨by omega, trivial, by omega, trivial⟩

/-- One unit bought at each of `k + 2` neighbouring levels and nothing sold: all levels but the lowest are
flagged. -/
theorem buys_only_flags (k : Nat) (levels : List Int) (m : ℚ) :
    (footprintFeatures levels (List.replicate (k + 2) (1 : ℚ)) (List.replicate (k + 2) 0) m).buyImb =
      false :: List.replicate (k + 1) true ∧
    (0 ≤ m → (footprintFeatures levels (List.replicate (k + 2) (1 : ℚ)) (List.replicate (k + 2) 0) m).sellImb =
      List.replicate (k + 2) false) := by
  constructor
  · show buyImbalances (List.replicate (k + 2) (1 : ℚ)) (List.replicate (k + 2) 0) m = _
    unfold buyImbalances
    rw [if_pos (by simp)]
    congr 1
    simp [List.replicate_succ]
  · intro hm
    show sellImbalances (List.replicate (k + 2) (1 : ℚ)) (List.replicate (k + 2) 0) m = _
    unfold sellImbalances
    rw [if_pos (by simp)]
    have e1 : (List.replicate (k + 2) (0 : ℚ)).dropLast = List.replicate (k + 1) 0 := by simp
    have e2 : (List.replicate (k + 2) (1 : ℚ)).tail = List.replicate (k + 1) 1 := by simp
    rw [e1, e2, List.zipWith_replicate, List.replicate_succ' (n := k + 1)]
    simp [hm]

/-- The trades of a bar in which each tick from 0 to `k + 1` is bought once, one unit each. -/
def risingBuys (k : Nat) : List (ℚ × ℚ × Int) := (List.range (k + 2)).map (fun i : Nat => ((i : ℚ), 1, 1))

theorem floor_monoRat : Monotone (fun x : ℚ => ⌊x⌋) := fun _ _ h => Int.floor_mono h

theorem atLevel_risingBuys (k l : Nat) (hl : l < k + 2) :
    atLevel (fun x : ℚ => ⌊x⌋) 1 (l : Int) (risingBuys k) = [((l : ℚ), 1, 1)] ∧
    atLevel (fun x : ℚ => ⌊x⌋) (-1) (l : Int) (risingBuys k) = [] := by
  constructor
  · unfold atLevel risingBuys
    rw [List.filter_map]
    have : ((fun t : ℚ × ℚ × Int => decide (t.2.2 = 1 ∧ (fun x : ℚ => ⌊x⌋) t.1 = (l : Int))) ∘
        (fun i : Nat => ((i : ℚ), (1 : ℚ), (1 : Int)))) = fun i => i == l := by
      funext i; by_cases h : i = l <;> simp [h]
    rw [this, List.filter_beq, List.count_eq_one_of_mem List.nodup_range (List.mem_range.2 hl)]
    rfl
  · unfold atLevel risingBuys
    simp

/-- The footprint of `risingBuys k`. -/
theorem risingBuys_footprint (k : Nat) (m : ℚ) (hm : 0 ≤ m) :
    ∃ fp, footprintBar (fun x : ℚ => ⌊x⌋) m 0 ((k + 1 : Nat) : ℚ) (risingBuys k) = .ok fp ∧
      fp.stats.maxRunSigned = ((k + 1 : Nat) : Int) ∧ fp.stats.buyImb.count true = k + 1 := by
  obtain ⟨fp, h0, h1, h2, h3, -, -, h4⟩ := C13_footprint_levels (fun x : ℚ => ⌊x⌋) floor_monoRat m 0
    ((k + 1 : Nat) : ℚ) (risingBuys k) (by positivity) (by
      intro t ht
      obtain ⟨i, hi, rfl⟩ := List.mem_map.1 ht
      have := List.mem_range.1 hi
      refine ⟨by positivity, ?_⟩
      show (i : ℚ) ≤ _
      exact_mod_cast (by omega : i ≤ k + 1))
  have hlen : fp.priceLevels.length = k + 2 := by
    simp only [Int.floor_natCast, Int.floor_zero] at h1
    omega
  have hb : fp.lv.buyVol = List.replicate (k + 2) 1 := by
    refine List.ext_getElem? (fun i => ?_)
    by_cases hi : i < k + 2
    · have := (h4 i (by omega)).2.1
      simp only [Int.floor_zero, zero_add] at this
      rw [this, (atLevel_risingBuys k i hi).1]
      simp [hi]
    · rw [List.getElem?_eq_none (by omega), List.getElem?_eq_none (by simp; omega)]
  have hs : fp.lv.sellVol = List.replicate (k + 2) 0 := by
    refine List.ext_getElem? (fun i => ?_)
    by_cases hi : i < k + 2
    · have := (h4 i (by omega)).2.2.1
      simp only [Int.floor_zero, zero_add] at this
      rw [this, (atLevel_risingBuys k i hi).2]
      simp [hi]
    · rw [List.getElem?_eq_none (by omega), List.getElem?_eq_none (by simp; omega)]
  have hst : fp.stats = footprintFeatures fp.priceLevels fp.lv.buyVol fp.lv.sellVol m := by
    unfold footprintBar at h0
    simp only at h0
    split at h0
    · cases h0
    · cases Except.ok.inj h0
      rfl
  obtain ⟨f1, f2⟩ := buys_only_flags k fp.priceLevels m
  rw [← hb, ← hs, ← hst] at f1 f2
  refine ⟨fp, h0, ?_, ?_⟩
  · have : fp.stats.maxRunSigned = maxRunSigned (List.zipWith levelSign fp.stats.buyImb fp.stats.sellImb) := by
      rw [hst]; rfl
    rw [this, f1, f2 hm]
    have : List.zipWith levelSign (false :: List.replicate (k + 1) true) (List.replicate (k + 2) false) =
        0 :: 1 :: List.replicate k 1 := by
      simp [List.replicate_succ, levelSign]
    rw [this]
    unfold maxRunSigned
    rw [List.foldl_cons, List.foldl_cons]
    have : runStep (runStep ⟨0, 0, 0, 0⟩ 0) 1 = ⟨1, 1, 1, 1⟩ := by decide
    rw [this, run_replicate_one k 1 (by norm_num)]
    simp; omega
  · rw [f1]; simp

/-- **C94 (run changes sign).** A bar in which 32769 to 65536 neighbouring levels are bought and none sold has a
longest run of buys; its stored value is negative, which is read as a run of sells. -/
theorem C94_run_sign_flips (k : Nat) (h0 : 32768 ≤ k + 1) (h1 : k + 1 < 65536) (m : ℚ) (hm : 0 ≤ m) :
    ∃ fp, footprintBar (fun x : ℚ => ⌊x⌋) m 0 ((k + 1 : Nat) : ℚ) (risingBuys k) = .ok fp ∧
      0 < fp.stats.maxRunSigned ∧ (storeFootprint fp).maxRun < 0 := by
  obtain ⟨fp, a, b, -⟩ := risingBuys_footprint k m hm
  refine ⟨fp, a, by rw [b]; positivity, ?_⟩
  show storeInt 16 _ < 0
  rw [b]; unfold storeInt
  norm_num; omega

example : ∃ k, 32768 ≤ k + 1 ∧ k + 1 < 65536 ∧ (risingBuys k).length = 40001 := ⟨39999, by omega, by omega, by simp [risingBuys]⟩

/-- **C94 (imbalances vanish).** With 65537 bought levels and no sale, 65536 levels are flagged, and both the
stored total and the stored run are 0. -/
theorem C94_imbalances_vanish (m : ℚ) (hm : 0 ≤ m) :
    ∃ fp, footprintBar (fun x : ℚ => ⌊x⌋) m 0 ((65535 + 1 : Nat) : ℚ) (risingBuys 65535) = .ok fp ∧
      fp.stats.buyImb.count true = 65536 ∧ (storeFootprint fp).buyImbSum = 0 ∧ (storeFootprint fp).maxRun = 0 := by
  obtain ⟨fp, a, b, c⟩ := risingBuys_footprint 65535 m hm
  refine ⟨fp, a, c, ?_, ?_⟩
  · rw [(C94_counts _ _ _ _ _ fp a).1, c]
  · show storeInt 16 _ = 0
    rw [b]; decide +kernel

example : (0 : ℚ) ≤ 3 ∧ (risingBuys 2).map (fun t => t.1) = [0, 1, 2, 3] := by decide +kernel

/-- **C94 (level overflow).** In a bar whose low is below and whose high is at or above `2^31` ticks the stored
levels are not in ascending order: the first is positive and a later one negative. -/
theorem C94_levels_fold (rnd : K → Int) (m lowP highP : K) (ts : List (K × K × Int))
    (fp : Footprint K) (hfp : footprintBar rnd m lowP highP ts = .ok fp)
    (h0 : 0 ≤ rnd lowP) (h1 : rnd lowP < 2 ^ 31) (h2 : 2 ^ 31 ≤ rnd highP) :
    ∃ i : Nat, (storeFootprint fp).priceLevels[0]? = some (rnd lowP) ∧
      (storeFootprint fp).priceLevels[i]? = some (-2 ^ 31) := by
  have h : fp.priceLevels = (List.range (rnd highP - rnd lowP + 1).toNat).map
      (fun k : Nat => rnd lowP + (k : Int)) := by
    unfold footprintBar at hfp
    simp only at hfp
    split at hfp
    · cases hfp
    · cases Except.ok.inj hfp
      rfl
  refine ⟨(2 ^ 31 - rnd lowP).toNat, ?_, ?_⟩
  · show (fp.priceLevels.map (storeInt 32))[0]? = _
    rw [h, List.getElem?_map, List.getElem?_map, List.getElem?_range (by omega)]
    simp only [Option.map_some, Nat.cast_zero, add_zero]
    rw [(storeInt_spec 32 (by norm_num) _).2.2.2.2 ⟨by norm_num; linarith, by norm_num; linarith⟩]
  · show (fp.priceLevels.map (storeInt 32))[_]? = _
    rw [h, List.getElem?_map, List.getElem?_map, List.getElem?_range (by omega)]
    simp only [Option.map_some]
    rw [Int.toNat_of_nonneg (by omega)]
    rw [show rnd lowP + (2 ^ 31 - rnd lowP) = 2 ^ 31 by ring]
    decide +kernel

example : (footprintBar (fun x : ℚ => ⌊x⌋) 3 0 2 (risingBuys 1)).isOk = true := by decide +kernel
example : ((footprintBar (fun x : ℚ => ⌊x * 100⌋) 3 (2147483647 / 100) (2147483649 / 100)
    [((2147483648 / 100 : ℚ), 5, 1)]).map (fun fp => ((storeFootprint fp).priceLevels, (storeFootprint fp).cot))).toOption =
    some ([2147483647, -2147483648, -2147483647], -2147483648) := by decide +kernel

end FinML
