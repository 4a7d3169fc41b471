/-
C101: the triple barrier method under rounding.
-/
import Mathlib.Data.Rat.Floor
import Mathlib.Tactic.Ring
import Mathlib.Tactic.Linarith
import Mathlib.Tactic.FieldSimp
import Mathlib.Tactic.NormNum
import Verif.Model.Float64Label
import Verif.Props.Weights64
import Verif.Props.TripleBarrier

set_option linter.unusedSectionVars false

namespace FinML

/-! ### Sterbenz: differences of close numbers are exact -/

/-- The difference of two float64 numbers within a factor of two of each other is a float64 number. -/
theorem f64_sub_exact (x y : ℚ) (hx : f64 x = x) (hy : f64 y = y) (h1 : y ≤ 2 * x) (h2 : x ≤ 2 * y) : f64 (x - y) = x - y := by
  have hx0 : 0 ≤ x := by linarith
  have hy0 : 0 ≤ y := by linarith
  obtain ⟨m, e, hm, rfl⟩ := f64_rep x hx
  obtain ⟨k, g, hk, rfl⟩ := f64_rep y hy
  have key : ∀ (m e k g : Int), |m| ≤ 2 ^ 53 → e ≤ g → 0 ≤ (k : ℚ) * 2 ^ g → (k : ℚ) * 2 ^ g ≤ 2 * ((m : ℚ) * 2 ^ e) →
      f64 ((m : ℚ) * 2 ^ e - (k : ℚ) * 2 ^ g) = (m : ℚ) * 2 ^ e - (k : ℚ) * 2 ^ g := by
    intro m e k g hm heg h0 hle
    obtain ⟨n, rfl⟩ : ∃ n : Nat, g = e + n := ⟨(g - e).toNat, by omega⟩
    have hpos := two_zpow_pos e
    have hk' : (k : ℚ) * 2 ^ (e + (n : Int)) = ((k * 2 ^ n : Int) : ℚ) * 2 ^ e := by
      rw [zpow_add₀ (by norm_num : (2 : ℚ) ≠ 0), zpow_natCast]; push_cast; ring
    rw [hk'] at h0 hle ⊢
    rw [← sub_mul, ← Int.cast_sub]
    refine rndBits_exact 53 (by norm_num) _ e ?_
    have a : (0 : ℚ) ≤ ((k * 2 ^ n : Int) : ℚ) := le_of_mul_le_mul_right (by simpa using h0) hpos
    have b : ((k * 2 ^ n : Int) : ℚ) ≤ 2 * (m : ℚ) := by
      refine le_of_mul_le_mul_right ?_ hpos
      linarith
    have a' : 0 ≤ k * 2 ^ n := by exact_mod_cast a
    have b' : k * 2 ^ n ≤ 2 * m := by exact_mod_cast b
    rw [abs_le] at hm ⊢
    constructor <;> linarith [hm.1, hm.2]
  rcases le_total e g with h | h
  · exact key m e k g hm h hy0 h1
  · have := key k g m e hk h hx0 h2
    rw [← neg_sub, f64_neg, this]

/-! ### Relative closeness -/

/-- `y` is within the relative distance `d` of `x`. -/
def Nr (d x y : ℚ) : Prop := x * (1 - d) ≤ y ∧ y ≤ x * (1 + d)

theorem Nr.mono {d d' x y : ℚ} (h : Nr d x y) (hx : 0 ≤ x) (hd : d ≤ d') : Nr d' x y := by
  constructor
  · refine le_trans ?_ h.1
    exact mul_le_mul_of_nonneg_left (by linarith) hx
  · refine le_trans h.2 ?_
    exact mul_le_mul_of_nonneg_left (by linarith) hx

theorem Nr.refl (d x : ℚ) (hx : 0 ≤ x) (hd : 0 ≤ d) : Nr d x x := by
  constructor
  · have := mul_nonneg hx hd; linarith
  · have := mul_nonneg hx hd; linarith

theorem Nr.nonneg {d x y : ℚ} (h : Nr d x y) (hx : 0 ≤ x) (hd : d ≤ 1) : 0 ≤ y :=
  le_trans (mul_nonneg hx (by linarith)) h.1

theorem Nr.trans {a b x y z : ℚ} (h1 : Nr a x y) (h2 : Nr b y z) (hx : 0 ≤ x) (ha : 0 ≤ a) (hb : 0 ≤ b) (hb1 : b ≤ 1) :
    Nr (a + b + a * b) x z := by
  constructor
  · refine le_trans ?_ h2.1
    have := mul_le_mul_of_nonneg_right h1.1 (show 0 ≤ 1 - b by linarith)
    refine le_trans ?_ this
    rw [mul_assoc]
    refine mul_le_mul_of_nonneg_left ?_ hx
    have := mul_nonneg ha hb
    linarith [show (1 - a) * (1 - b) = 1 - a - b + a * b by ring]
  · refine le_trans h2.2 ?_
    have := mul_le_mul_of_nonneg_right h1.2 (show 0 ≤ 1 + b by linarith)
    refine le_trans this (le_of_eq ?_)
    ring

theorem Nr.f64 {x : ℚ} (hx : 0 ≤ x) : Nr (1 / 2 ^ 53) x (FinML.f64 x) := f64_factor hx

theorem Nr.div {a b x y u v : ℚ} (h1 : Nr a x y) (h2 : Nr b u v) (hx : 0 ≤ x) (hu : 0 < u) (ha : 0 ≤ a) (ha1 : a ≤ 1)
    (hb : 0 ≤ b) (hb1 : b ≤ 1 / 2) : Nr (a + 2 * b + 2 * a * b) (x / u) (y / v) := by
  have hv : 0 < v := lt_of_lt_of_le (mul_pos hu (by linarith)) h2.1
  constructor
  · rw [div_mul_eq_mul_div, div_le_div_iff₀ hu hv]
    have s1 : x * (1 - (a + 2 * b + 2 * a * b)) * v ≤ x * (1 - a) * (1 - b) * v := by
      refine mul_le_mul_of_nonneg_right ?_ hv.le
      rw [mul_assoc x]
      refine mul_le_mul_of_nonneg_left ?_ hx
      have := mul_nonneg ha hb
      linarith [show (1 - a) * (1 - b) = 1 - a - b + a * b by ring]
    have s2 : x * (1 - a) * (1 - b) * v ≤ x * (1 - a) * u := by
      rw [mul_assoc (x * (1 - a))]
      refine mul_le_mul_of_nonneg_left ?_ (mul_nonneg hx (by linarith))
      have := mul_le_mul_of_nonneg_left h2.2 (show 0 ≤ 1 - b by linarith)
      refine le_trans this ?_
      have hbb := mul_nonneg hb hb
      have := mul_nonneg hu.le hbb
      linarith [show (1 - b) * (u * (1 + b)) = u - u * (b * b) by ring]
    have s3 := mul_le_mul_of_nonneg_right h1.1 hu.le
    linarith
  · rw [div_mul_eq_mul_div, div_le_div_iff₀ hv hu]
    have s1 := mul_le_mul_of_nonneg_right h1.2 hu.le
    have hxa : 0 ≤ x * (1 + a) := mul_nonneg hx (by linarith)
    have s2 : u ≤ (1 + 2 * b) * v := by
      have := mul_le_mul_of_nonneg_left h2.1 (show 0 ≤ 1 + 2 * b by linarith)
      refine le_trans ?_ this
      have e : (1 + 2 * b) * (u * (1 - b)) = u + u * (b * (1 - 2 * b)) := by ring
      rw [e]
      have := mul_nonneg hu.le (mul_nonneg hb (show 0 ≤ 1 - 2 * b by linarith))
      linarith
    have s3 := mul_le_mul_of_nonneg_left s2 hxa
    have e : x * (1 + a) * ((1 + 2 * b) * v) = x * (1 + (a + 2 * b + 2 * a * b)) * v := by ring
    linarith

theorem Nr.max {d x y x' y' : ℚ} (h : Nr d x y) (h' : Nr d x' y') (hd : 0 ≤ d) (hd1 : d ≤ 1) :
    Nr d (max x x') (max y y') := by
  have c1 : (0 : ℚ) ≤ 1 - d := by linarith
  have c2 : (0 : ℚ) ≤ 1 + d := by linarith
  constructor
  · rw [max_mul_of_nonneg _ _ c1]
    exact max_le_max h.1 h'.1
  · rw [max_mul_of_nonneg _ _ c2]
    exact max_le_max h.2 h'.2

/-! ### The loop -/

/-- The exact return at a bar. -/
def exactRet (logc : List ℚ) (base : ℚ) (side : Int) (j : Nat) : ℚ := (logc.getD j 0 - base) * (side : ℚ)

theorem tbmRet64_eq (lc base : ℚ) (side : Int) (hs : side = 1 ∨ side = -1) :
    tbmRet64 lc base side = f64 ((lc - base) * (side : ℚ)) := by
  rcases hs with rfl | rfl
  · simp [tbmRet64, f64_idem]
  · simp only [tbmRet64, Int.cast_neg, Int.cast_one, mul_neg_one, f64_neg, f64_idem]

theorem f64_pos_iff (x : ℚ) : 0 < f64 x ↔ 0 < x := by
  constructor
  · intro h
    by_contra hx
    have := f64_mono (not_lt.mp hx)
    rw [f64_zero] at this
    linarith
  · exact f64_pos

theorem f64_neg_iff (x : ℚ) : f64 x < 0 ↔ x < 0 := by
  have := f64_pos_iff (-x)
  rw [f64_neg] at this
  constructor
  · intro h; have := this.mp (by linarith); linarith
  · intro h; have := this.mpr (by linarith); linarith

theorem f64_eq_zero_iff (x : ℚ) : f64 x = 0 ↔ x = 0 := by
  constructor
  · intro h
    rcases lt_trichotomy x 0 with hx | hx | hx
    · have := (f64_neg_iff x).mpr hx; linarith
    · exact hx
    · have := (f64_pos_iff x).mpr hx; linarith
  · rintro rfl; exact f64_zero

theorem tbmProgress64_touch (ub lb : Ext ℚ) (r : ℚ) (a : TbmAcc ℚ) :
    (tbmProgress64 ub lb r a).touch = a.touch ∧ (tbmProgress64 ub lb r a).ret = a.ret := by
  unfold tbmProgress64
  split
  · exact ⟨rfl, rfl⟩
  · split <;> exact ⟨rfl, rfl⟩

/-- The touch found by the exact loop. -/
theorem tbmLoop_find (ts : List Int) (logc : List ℚ) (t0 mc : Int) (side : Int) (base : ℚ) (ub lb : Ext ℚ) :
    ∀ (js : List Nat) (a : TbmAcc ℚ), a.touch = none →
    (tbmLoop ts logc t0 mc (side : ℚ) base ub lb js a).touch =
      js.find? (fun j => !decide (ts.getD j 0 - t0 < mc) &&
        (ub.leFin (exactRet logc base side j) || lb.geFin (exactRet logc base side j))) := by
  intro js
  induction js with
  | nil => intro a ha; simpa [tbmLoop] using ha
  | cons j js ih =>
    intro a ha
    simp only [tbmLoop]
    by_cases h : ts.getD j 0 - t0 < mc
    · rw [if_pos h, ih a ha, List.find?_cons_of_neg]
      rw [decide_eq_true h]; simp
    · rw [if_neg h]
      by_cases hh : (ub.leFin ((logc.getD j 0 - base) * (side : ℚ)) || lb.geFin ((logc.getD j 0 - base) * (side : ℚ))) = true
      · rw [if_pos hh, List.find?_cons_of_pos]
        simp only [exactRet]
        rw [hh, decide_eq_false h]; rfl
      · rw [if_neg hh, ih _ (by rw [(tbmProgress_touch ub lb _ _).1]; exact ha), List.find?_cons_of_neg]
        simp only [exactRet]
        rw [Bool.not_eq_true] at hh
        rw [hh, decide_eq_false h]; simp

/-- The touch found by the float64 loop. -/
theorem tbmLoop64_find (ts : List Int) (logc : List ℚ) (t0 : Int) (mc : ℚ) (side : Int) (base : ℚ) (ub lb : Ext ℚ) :
    ∀ (js : List Nat) (a : TbmAcc ℚ), a.touch = none →
    (tbmLoop64 ts logc t0 mc side base ub lb js a).touch =
      js.find? (fun j => !decide (f64 ((ts.getD j 0 - t0 : Int) : ℚ) < mc) &&
        (ub.leFin (tbmRet64 (logc.getD j 0) base side) || lb.geFin (tbmRet64 (logc.getD j 0) base side))) := by
  intro js
  induction js with
  | nil => intro a ha; simpa [tbmLoop64] using ha
  | cons j js ih =>
    intro a ha
    simp only [tbmLoop64]
    by_cases h : f64 ((ts.getD j 0 - t0 : Int) : ℚ) < mc
    · rw [if_pos h, ih a ha, List.find?_cons_of_neg]
      rw [decide_eq_true h]; simp
    · rw [if_neg h]
      by_cases hh : (ub.leFin (tbmRet64 (logc.getD j 0) base side) || lb.geFin (tbmRet64 (logc.getD j 0) base side)) = true
      · rw [if_pos hh, List.find?_cons_of_pos]
        rw [hh, decide_eq_false h]; rfl
      · rw [if_neg hh, ih _ (by rw [(tbmProgress64_touch ub lb _ _).1]; exact ha), List.find?_cons_of_neg]
        rw [Bool.not_eq_true] at hh
        rw [hh, decide_eq_false h]; simp

/-- With a weaker condition the first find is not later. -/
theorem find_weaker (p q : Nat → Bool) : ∀ (js : List Nat), js.Pairwise (· < ·) → (∀ j ∈ js, p j = true → q j = true) →
    ∀ j, js.find? p = some j → ∃ i, js.find? q = some i ∧ i ≤ j := by
  intro js
  induction js with
  | nil => intro _ _ j h; simp at h
  | cons k js ih =>
    intro hs hpq j h
    rw [List.pairwise_cons] at hs
    by_cases hp : p k = true
    · rw [List.find?_cons_of_pos hp] at h
      rw [List.find?_cons_of_pos (hpq k (by simp) hp)]
      exact ⟨k, rfl, (Option.some.inj h).le⟩
    · rw [List.find?_cons_of_neg hp] at h
      by_cases hq : q k = true
      · rw [List.find?_cons_of_pos hq]
        exact ⟨k, rfl, (hs.1 j (List.mem_of_find?_eq_some h)).le⟩
      · rw [List.find?_cons_of_neg hq]
        exact ih hs.2 (fun i hi => hpq i (by simp [hi])) j h

/-! ### One event -/

/-- The hypotheses that tie an event in float64 to the exact one: finite multipliers, a side of 1 or -1, the same window
(C87 says when) and the same minimum time, with durations below `2^53` nanoseconds (104 days). -/
structure TbmMatch (p : TbmParams ℚ) (p64 : TbmParams64) (ts : List Int) (i0 : Nat) (side : Int) (T B : ℚ) : Prop where
  side : side = 1 ∨ side = -1
  top : p.top = .fin T
  bottom : p.bottom = .fin B
  top64 : p64.top = .fin T
  bottom64 : p64.bottom = .fin B
  window : verticalIdxOpt64 ts (ts.getD i0 0) p64.vertical = verticalIdx ts (ts.getD i0 0) p.vertical
  minClose : p64.minCloseSec * 1000000000 = (p.minClose : ℚ)
  minCloseRange : |p.minClose| ≤ 2 ^ 53
  durations : ∀ j, |ts.getD j 0 - ts.getD i0 0| ≤ 2 ^ 53
  minRet : p64.minRet = p.minRet
  minRet64 : f64 p.minRet = p.minRet

/-- **C101.** Without a vertical barrier both windows end at the last bar, so the condition on windows holds. -/
theorem C101_no_vertical (ts : List Int) (t0 : Int) :
    verticalIdxOpt64 ts t0 none = verticalIdx ts t0 none ∧ verticalIdxOpt64 ts t0 none = (ts.length : Int) - 1 := ⟨rfl, rfl⟩

/-- The bars that are examined. -/
def tbmPath (ts : List Int) (i0 : Nat) (v : Option Int) : List Nat :=
  List.range' (i0 + 1) ((verticalIdx ts (ts.getD i0 0) v).toNat - i0)

theorem tbmPath_sorted (ts : List Int) (i0 : Nat) (v : Option Int) : (tbmPath ts i0 v).Pairwise (· < ·) :=
  List.pairwise_lt_range' _

theorem tbmPath_le (ts : List Int) (i0 : Nat) (v : Option Int) :
    ∀ j ∈ tbmPath ts i0 v, i0 < j ∧ j ≤ (verticalIdx ts (ts.getD i0 0) v).toNat := by
  intro j hj
  simp only [tbmPath, List.mem_range'_1] at hj
  omega

theorem TbmMatch.short {p : TbmParams ℚ} {p64 : TbmParams64} {ts : List Int} {i0 : Nat} {side : Int} {T B : ℚ}
    (h : TbmMatch p p64 ts i0 side T B) (j : Nat) :
    f64 ((ts.getD j 0 - ts.getD i0 0 : Int) : ℚ) < f64 (p64.minCloseSec * 1000000000) ↔
      ts.getD j 0 - ts.getD i0 0 < p.minClose := by
  rw [h.minClose, f64_int _ (h.durations j), f64_int _ h.minCloseRange]
  exact Int.cast_lt

/-- An exact hit is a float64 hit. -/
theorem hit_mono (T B tgt r : ℚ) (h : ((Ext.fin (tgt * T)).leFin r || (Ext.fin (-tgt * B)).geFin r) = true) :
    ((Ext.fin (f64 (tgt * T))).leFin (f64 r) || (Ext.fin (f64 (-tgt * B))).geFin (f64 r)) = true := by
  simp only [Ext.leFin, Ext.geFin, Bool.or_eq_true, decide_eq_true_eq] at h ⊢
  rcases h with h | h
  · exact Or.inl (f64_mono h)
  · exact Or.inr (f64_mono h)

/-- A float64 hit is an exact hit up to one rounding of the return and one of the barrier. -/
theorem hit_near (T B tgt r : ℚ)
    (h : ((Ext.fin (f64 (tgt * T))).leFin (f64 r) || (Ext.fin (f64 (-tgt * B))).geFin (f64 r)) = true) :
    tgt * T ≤ r + (|r| + |tgt * T|) / 2 ^ 53 ∨ r ≤ -tgt * B + (|r| + |tgt * B|) / 2 ^ 53 := by
  simp only [Ext.leFin, Ext.geFin, Bool.or_eq_true, decide_eq_true_eq] at h
  have a := abs_le.mp (f64_relErr r)
  rcases h with h | h
  · left
    have b := abs_le.mp (f64_relErr (tgt * T))
    rw [add_div]
    linarith [a.2, b.1]
  · right
    have b := abs_le.mp (f64_relErr (-tgt * B))
    rw [neg_mul, abs_neg] at b
    rw [neg_mul] at h ⊢
    rw [add_div]
    linarith [a.1, b.2]

/-- **C101.** Rounding skips the same events and never delays a touch; an earlier touch happens only at a bar whose exact return
reaches a barrier up to the relative error `2^-53` of the return and of the barrier. -/
theorem C101_touch (p : TbmParams ℚ) (p64 : TbmParams64) (ts : List Int) (logc : List ℚ) (isMeta : Bool) (i0 : Nat) (tgt : ℚ)
    (side : Int) (T B : ℚ) (h : TbmMatch p p64 ts i0 side T B) :
    ((tbmEvent p ts logc isMeta i0 tgt side).touch = none ∧ (tbmEvent64 p64 ts logc isMeta i0 tgt side).touch = none) ∨
    ∃ j i, (tbmEvent p ts logc isMeta i0 tgt side).touch = some j ∧
      (tbmEvent64 p64 ts logc isMeta i0 tgt side).touch = some i ∧ i ≤ j ∧
      (i < j → tgt * T ≤ exactRet logc (logc.getD i0 0) side i + (|exactRet logc (logc.getD i0 0) side i| + |tgt * T|) / 2 ^ 53 ∨
        exactRet logc (logc.getD i0 0) side i ≤ -tgt * B + (|exactRet logc (logc.getD i0 0) side i| + |tgt * B|) / 2 ^ 53) := by
  by_cases ht : verticalIdx ts (ts.getD i0 0) p.vertical ≤ (i0 : Int)
  · left
    constructor
    · simp only [tbmEvent]; rw [if_pos ht]
    · simp only [tbmEvent64]; rw [h.window, if_pos ht]
  · right
    set q : Nat → Bool := fun j => !decide (ts.getD j 0 - ts.getD i0 0 < p.minClose) &&
      ((Ext.fin (tgt * T)).leFin (exactRet logc (logc.getD i0 0) side j) ||
        (Ext.fin (-tgt * B)).geFin (exactRet logc (logc.getD i0 0) side j)) with hq
    set q64 : Nat → Bool := fun j => !decide (ts.getD j 0 - ts.getD i0 0 < p.minClose) &&
      ((Ext.fin (f64 (tgt * T))).leFin (f64 (exactRet logc (logc.getD i0 0) side j)) ||
        (Ext.fin (f64 (-tgt * B))).geFin (f64 (exactRet logc (logc.getD i0 0) side j))) with hq64
    have e1 : (tbmEvent p ts logc isMeta i0 tgt side).touch =
        some (((tbmPath ts i0 p.vertical).find? q).getD (verticalIdx ts (ts.getD i0 0) p.vertical).toNat) := by
      simp only [tbmEvent]
      rw [if_neg ht, tbmLoop_find _ _ _ _ _ _ _ _ _ _ rfl, h.top, h.bottom]
      rfl
    have e2 : (tbmEvent64 p64 ts logc isMeta i0 tgt side).touch =
        some (((tbmPath ts i0 p.vertical).find? q64).getD (verticalIdx ts (ts.getD i0 0) p.vertical).toNat) := by
      simp only [tbmEvent64]
      rw [h.window, if_neg ht, tbmLoop64_find _ _ _ _ _ _ _ _ _ _ rfl, h.top64, h.bottom64]
      have : (fun j => !decide (f64 ((ts.getD j 0 - ts.getD i0 0 : Int) : ℚ) < f64 (p64.minCloseSec * 1000000000)) &&
          ((Ext.scale64 tgt (.fin T)).leFin (tbmRet64 (logc.getD j 0) (logc.getD i0 0) side) ||
            (Ext.scale64 (-tgt) (.fin B)).geFin (tbmRet64 (logc.getD j 0) (logc.getD i0 0) side))) = q64 := by
        funext j
        rw [hq64]
        simp only [tbmRet64_eq _ _ _ h.side, exactRet, Ext.scale64]
        rw [decide_eq_decide.mpr (h.short j)]
      rw [this]
      rfl
    have hw : ∀ j ∈ tbmPath ts i0 p.vertical, q j = true → q64 j = true := by
      intro j _ hj
      rw [hq] at hj
      rw [hq64]
      simp only [Bool.and_eq_true] at hj ⊢
      exact ⟨hj.1, hit_mono T B tgt _ hj.2⟩
    refine ⟨_, _, e1, e2, ?_, ?_⟩
    · cases hf : (tbmPath ts i0 p.vertical).find? q with
      | some j =>
        obtain ⟨i, hi, hij⟩ := find_weaker q q64 _ (tbmPath_sorted ts i0 p.vertical) hw j hf
        rw [hi]; exact hij
      | none =>
        cases hg : (tbmPath ts i0 p.vertical).find? q64 with
        | none => exact le_refl _
        | some i => exact (tbmPath_le ts i0 p.vertical i (List.mem_of_find?_eq_some hg)).2
    · intro hlt
      cases hg : (tbmPath ts i0 p.vertical).find? q64 with
      | none =>
        exfalso
        rw [hg] at hlt
        cases hf : (tbmPath ts i0 p.vertical).find? q with
        | none => rw [hf] at hlt; exact lt_irrefl _ hlt
        | some j =>
          rw [hf] at hlt
          have := (tbmPath_le ts i0 p.vertical j (List.mem_of_find?_eq_some hf)).2
          simp only [Option.getD_some, Option.getD_none] at hlt
          omega
      | some i =>
        have := List.find?_some hg
        rw [hq64] at this
        simp only [Bool.and_eq_true] at this
        exact hit_near T B tgt _ this.2

/-! ### Returns, labels and ratios -/

/-- The float64 accumulator follows the exact one. -/
structure TbmNear (a b : TbmAcc ℚ) : Prop where
  ret : b.ret = f64 a.ret
  u0 : 0 ≤ a.maxU
  l0 : 0 ≤ a.maxL
  u : Nr (6 / 2 ^ 53) a.maxU b.maxU
  l : Nr (6 / 2 ^ 53) a.maxL b.maxL

/-- The quotient of two rounded numbers, rounded. -/
theorem Nr.quot {r u : ℚ} (hr : 0 < r) (hu : 0 < u) : Nr (6 / 2 ^ 53) (r / u) (FinML.f64 (FinML.f64 r / FinML.f64 u)) := by
  have h1 := (Nr.f64 hr.le).div (Nr.f64 hu.le) hr.le hu (by norm_num) (by norm_num) (by norm_num) (by norm_num)
  have hq : 0 ≤ FinML.f64 r / FinML.f64 u := div_nonneg (f64_nonneg hr.le) (f64_nonneg hu.le)
  have h2 := h1.trans (Nr.f64 hq) (div_nonneg hr.le hu.le) (by norm_num) (by norm_num) (by norm_num)
  exact h2.mono (div_nonneg hr.le hu.le) (by norm_num)

theorem valid_scale (t x : ℚ) : (Ext.fin (f64 (t * x))).valid = ((Ext.fin (t * x)).valid).map f64 := by
  simp only [Ext.valid, f64_eq_zero_iff]
  split <;> rfl

theorem valid_fin (x : ℚ) : (Ext.fin x).valid = if x = 0 then none else some x := rfl

theorem progress_near (T B tgt r : ℚ) (hT : 0 ≤ tgt * T) (hB : 0 ≤ tgt * B) (a b : TbmAcc ℚ)
    (hab : TbmNear a b) :
    TbmNear (tbmProgress (.fin (tgt * T)) (.fin (-tgt * B)) r { a with ret := r })
      (tbmProgress64 (.fin (f64 (tgt * T))) (.fin (f64 (-tgt * B))) (f64 r) { b with ret := f64 r }) := by
  have hr1 : decide (f64 r > 0) = decide (r > 0) := by
    rw [decide_eq_decide]; exact f64_pos_iff r
  have hr2 : decide (f64 r < 0) = decide (r < 0) := by
    rw [decide_eq_decide]; exact f64_neg_iff r
  unfold tbmProgress tbmProgress64
  rw [hr1, hr2, valid_scale, valid_scale]
  by_cases h1 : r > 0
  · by_cases hu : tgt * T = 0
    · have hn : ¬ r < 0 := by linarith
      simp only [valid_fin, hu, if_true, Option.map_none, decide_eq_false hn, decide_eq_true h1]
      exact ⟨rfl, hab.u0, hab.l0, hab.u, hab.l⟩
    · simp only [valid_fin, hu, if_false, Option.map_some, decide_eq_true h1]
      have hpos : 0 < tgt * T := lt_of_le_of_ne hT (Ne.symm hu)
      refine ⟨rfl, le_max_of_le_left hab.u0, hab.l0, hab.u.max (Nr.quot h1 hpos) (by norm_num) (by norm_num), hab.l⟩
  · by_cases h2 : r < 0
    · by_cases hl : -tgt * B = 0
      · simp only [valid_fin, hl, if_true, Option.map_none, decide_eq_false h1, decide_eq_true h2]
        exact ⟨rfl, hab.u0, hab.l0, hab.u, hab.l⟩
      · simp only [valid_fin (-tgt * B), hl, if_false, Option.map_some, decide_eq_false h1, decide_eq_true h2]
        have hneg : -tgt * B < 0 := lt_of_le_of_ne (by linarith) hl
        have hq := Nr.quot (r := -r) (u := -(-tgt * B)) (by linarith) (by linarith)
        rw [f64_neg, f64_neg, neg_div_neg_eq, neg_div_neg_eq] at hq
        exact ⟨rfl, hab.u0, le_max_of_le_left hab.l0, hab.u, hab.l.max hq (by norm_num) (by norm_num)⟩
    · simp only [decide_eq_false h1, decide_eq_false h2]
      exact ⟨rfl, hab.u0, hab.l0, hab.u, hab.l⟩

theorem TbmNear.touch {a b : TbmAcc ℚ} (h : TbmNear a b) (x y : Option Nat) :
    TbmNear { a with touch := x } { b with touch := y } := ⟨h.ret, h.u0, h.l0, h.u, h.l⟩

theorem loop_near {p : TbmParams ℚ} {p64 : TbmParams64} {ts : List Int} {i0 : Nat} {side : Int} {T B : ℚ}
    (h : TbmMatch p p64 ts i0 side T B) (logc : List ℚ) (tgt : ℚ) (hT : 0 ≤ tgt * T) (hB : 0 ≤ tgt * B) (t1 : Nat) :
    ∀ (js : List Nat) (a b : TbmAcc ℚ), js.Pairwise (· < ·) → (∀ j ∈ js, j ≤ t1) → TbmNear a b → a.touch = none →
      b.touch = none →
      (tbmLoop ts logc (ts.getD i0 0) p.minClose (side : ℚ) (logc.getD i0 0) (.fin (tgt * T)) (.fin (-tgt * B)) js a).touch.getD t1 =
        (tbmLoop64 ts logc (ts.getD i0 0) (f64 (p64.minCloseSec * 1000000000)) side (logc.getD i0 0) (.fin (f64 (tgt * T)))
          (.fin (f64 (-tgt * B))) js b).touch.getD t1 →
      TbmNear
        (tbmLoop ts logc (ts.getD i0 0) p.minClose (side : ℚ) (logc.getD i0 0) (.fin (tgt * T)) (.fin (-tgt * B)) js a)
        (tbmLoop64 ts logc (ts.getD i0 0) (f64 (p64.minCloseSec * 1000000000)) side (logc.getD i0 0) (.fin (f64 (tgt * T)))
          (.fin (f64 (-tgt * B))) js b) := by
  intro js
  induction js with
  | nil => intro a b _ _ hab _ _ _; exact hab
  | cons j js ih =>
    intro a b hs hle hab ha hb heq
    rw [List.pairwise_cons] at hs
    have hle' : ∀ k ∈ js, k ≤ t1 := fun k hk => hle k (by simp [hk])
    simp only [tbmLoop, tbmLoop64] at heq ⊢
    by_cases hm : ts.getD j 0 - ts.getD i0 0 < p.minClose
    · rw [if_pos hm, if_pos ((h.short j).mpr hm)] at heq ⊢
      exact ih a b hs.2 hle' hab ha hb heq
    · have hm' : ¬ f64 ((ts.getD j 0 - ts.getD i0 0 : Int) : ℚ) < f64 (p64.minCloseSec * 1000000000) :=
        fun hc => hm ((h.short j).mp hc)
      rw [if_neg hm, if_neg hm'] at heq ⊢
      rw [tbmRet64_eq _ _ _ h.side] at heq ⊢
      generalize hr : (logc.getD j 0 - logc.getD i0 0) * (side : ℚ) = r at heq ⊢
      have hn := progress_near T B tgt r hT hB a b hab
      have ta := (tbmProgress_touch (.fin (tgt * T)) (.fin (-tgt * B)) r { a with ret := r }).1
      have tb := (tbmProgress64_touch (.fin (f64 (tgt * T))) (.fin (f64 (-tgt * B))) (f64 r) { b with ret := f64 r }).1
      generalize tbmProgress (.fin (tgt * T)) (.fin (-tgt * B)) r { a with ret := r } = a' at heq hn ta ⊢
      generalize tbmProgress64 (.fin (f64 (tgt * T))) (.fin (f64 (-tgt * B))) (f64 r) { b with ret := f64 r } = b'
        at heq hn tb ⊢
      have ta' : a'.touch = none := ta.trans ha
      have tb' : b'.touch = none := tb.trans hb
      by_cases hh : ((Ext.fin (tgt * T)).leFin r || (Ext.fin (-tgt * B)).geFin r) = true
      · rw [if_pos hh, if_pos (hit_mono T B tgt r hh)]
        exact hn.touch _ _
      · rw [if_neg hh] at heq ⊢
        by_cases h64 : ((Ext.fin (f64 (tgt * T))).leFin (f64 r) || (Ext.fin (f64 (-tgt * B))).geFin (f64 r)) = true
        · rw [if_pos h64] at heq ⊢
          cases js with
          | nil => exact hn.touch a'.touch _
          | cons k js =>
            exfalso
            have hjk : j < k := hs.1 k (by simp)
            have hkt : k ≤ t1 := hle' k (by simp)
            rw [tbmLoop_find _ _ _ _ _ _ _ _ _ _ ta'] at heq
            simp only [Option.getD_some] at heq
            revert heq
            generalize hf : List.find? _ (k :: js) = o
            intro heq
            cases o with
            | none => simp only [Option.getD_none] at heq; omega
            | some i =>
              have := hs.1 i (List.mem_of_find?_eq_some hf)
              simp only [Option.getD_some] at heq; omega
        · rw [if_neg h64] at heq ⊢
          exact ih a' b' hs.2 hle' hn ta' tb' heq

/-- Two ratios that are capped at 1. -/
theorem cap_near {v w : ℚ} (h : Nr (25 / 2 ^ 53) v w) (hv : 0 ≤ v) : |min w 1 - min v 1| ≤ 25 / 2 ^ 53 := by
  obtain ⟨h1, h2⟩ := h
  rcases le_total v 1 with hv1 | hv1
  · rw [min_eq_left hv1]
    have e1 : v * (25 / 2 ^ 53) ≤ 25 / 2 ^ 53 := by
      have := mul_le_mul_of_nonneg_right hv1 (show (0 : ℚ) ≤ 25 / 2 ^ 53 by norm_num)
      linarith
    have e2 : v * (1 - 25 / 2 ^ 53) = v - v * (25 / 2 ^ 53) := by ring
    have e3 : v * (1 + 25 / 2 ^ 53) = v + v * (25 / 2 ^ 53) := by ring
    rw [e2] at h1
    rw [e3] at h2
    rw [abs_le]
    rcases le_total w 1 with hw | hw
    · rw [min_eq_left hw]; constructor <;> linarith
    · rw [min_eq_right hw]; constructor <;> linarith
  · rw [min_eq_right hv1]
    have e1 := mul_le_mul_of_nonneg_right hv1 (show (0 : ℚ) ≤ 1 - 25 / 2 ^ 53 by norm_num)
    rw [abs_le]
    rcases le_total w 1 with hw | hw
    · rw [min_eq_left hw]; constructor <;> linarith
    · rw [min_eq_right hw]; constructor <;> norm_num

theorem ratio_near {x y u v : ℚ} (hx : 0 ≤ x) (hu : 0 ≤ u) (h1 : Nr (6 / 2 ^ 53) x y) (h2 : Nr (6 / 2 ^ 53) u v) :
    |min (f64 (y / f64 (1 + v))) 1 - min (x / (1 + u)) 1| ≤ 25 / 2 ^ 53 := by
  have hv : 0 ≤ v := h2.nonneg hu (by norm_num)
  have hy : 0 ≤ y := h1.nonneg hx (by norm_num)
  have h3 : Nr (6 / 2 ^ 53) (1 + u) (1 + v) := by
    constructor <;> linarith [h2.1, h2.2, show (1 + u) * (1 - 6 / 2 ^ 53) = u * (1 - 6 / 2 ^ 53) + (1 - 6 / 2 ^ 53) by ring,
      show (1 + u) * (1 + 6 / 2 ^ 53) = u * (1 + 6 / 2 ^ 53) + (1 + 6 / 2 ^ 53) by ring,
      show (0 : ℚ) ≤ 6 / 2 ^ 53 by norm_num]
  have h4 : Nr (8 / 2 ^ 53) (1 + u) (f64 (1 + v)) :=
    (h3.trans (Nr.f64 (by linarith)) (by linarith) (by norm_num) (by norm_num) (by norm_num)).mono (by linarith) (by norm_num)
  have h5 : Nr (23 / 2 ^ 53) (x / (1 + u)) (y / f64 (1 + v)) :=
    (h1.div h4 hx (by linarith) (by norm_num) (by norm_num) (by norm_num) (by norm_num)).mono (div_nonneg hx (by linarith))
      (by norm_num)
  have hq : 0 ≤ y / f64 (1 + v) := div_nonneg hy (f64_nonneg (by linarith))
  have h6 : Nr (25 / 2 ^ 53) (x / (1 + u)) (f64 (y / f64 (1 + v))) :=
    (h5.trans (Nr.f64 hq) (div_nonneg hx (by linarith)) (by norm_num) (by norm_num) (by norm_num)).mono
      (div_nonneg hx (by linarith)) (by norm_num)
  exact cap_near h6 (div_nonneg hx (by linarith))

/-- **C101.** If both computations stop at the same bar, the float64 return is the correctly rounded exact return, the side label
is the same, the meta-label is the same unless the exact return lies just below the minimum return, and the ratios differ by
at most `25 / 2^53`. -/
theorem C101_values (p : TbmParams ℚ) (p64 : TbmParams64) (ts : List Int) (logc : List ℚ) (isMeta : Bool) (i0 : Nat) (tgt : ℚ)
    (side : Int) (T B : ℚ) (h : TbmMatch p p64 ts i0 side T B) (hT : 0 ≤ tgt * T) (hB : 0 ≤ tgt * B)
    (heq : (tbmEvent64 p64 ts logc isMeta i0 tgt side).touch = (tbmEvent p ts logc isMeta i0 tgt side).touch) :
    (tbmEvent64 p64 ts logc isMeta i0 tgt side).ret = ((tbmEvent p ts logc isMeta i0 tgt side).ret).map f64 ∧
    ((tbmEvent64 p64 ts logc isMeta i0 tgt side).label ≠ (tbmEvent p ts logc isMeta i0 tgt side).label →
      isMeta = true ∧ ∃ r, (tbmEvent p ts logc isMeta i0 tgt side).ret = some r ∧ r < p.minRet ∧ f64 r = p.minRet) ∧
    (∀ x, (tbmEvent p ts logc isMeta i0 tgt side).ratio = some x →
      ∃ y, (tbmEvent64 p64 ts logc isMeta i0 tgt side).ratio = some y ∧ |y - x| ≤ 25 / 2 ^ 53 ∧ 0 ≤ y ∧ y ≤ 1) ∧
    ((tbmEvent p ts logc isMeta i0 tgt side).ratio = none → (tbmEvent64 p64 ts logc isMeta i0 tgt side).ratio = none) := by
  by_cases ht : verticalIdx ts (ts.getD i0 0) p.vertical ≤ (i0 : Int)
  · have e1 : tbmEvent p ts logc isMeta i0 tgt side = ⟨0, none, none, none⟩ := by
      simp only [tbmEvent]; rw [if_pos ht]
    have e2 : tbmEvent64 p64 ts logc isMeta i0 tgt side = ⟨0, none, none, none⟩ := by
      simp only [tbmEvent64]; rw [h.window, if_pos ht]
    rw [e1, e2]
    simp
  · set t1 := (verticalIdx ts (ts.getD i0 0) p.vertical).toNat with ht1
    set A := tbmLoop ts logc (ts.getD i0 0) p.minClose (side : ℚ) (logc.getD i0 0) (.fin (tgt * T)) (.fin (-tgt * B))
      (tbmPath ts i0 p.vertical) ⟨none, 0, 0, 0⟩ with hA
    set A64 := tbmLoop64 ts logc (ts.getD i0 0) (f64 (p64.minCloseSec * 1000000000)) side (logc.getD i0 0)
      (.fin (f64 (tgt * T))) (.fin (f64 (-tgt * B))) (tbmPath ts i0 p.vertical) ⟨none, 0, 0, 0⟩ with hA64
    have e1 : tbmEvent p ts logc isMeta i0 tgt side = ⟨tbmLabel isMeta p.minRet A.ret, some (A.touch.getD t1), some A.ret,
        tbmRatio (.fin (tgt * T)) (.fin (-tgt * B)) (A.touch.getD t1) t1 A⟩ := by
      simp only [tbmEvent]; rw [if_neg ht, h.top, h.bottom]; rfl
    have e2 : tbmEvent64 p64 ts logc isMeta i0 tgt side = ⟨tbmLabel isMeta p.minRet A64.ret, some (A64.touch.getD t1),
        some A64.ret, tbmRatio64 (.fin (f64 (tgt * T))) (.fin (f64 (-tgt * B))) (A64.touch.getD t1) t1 A64⟩ := by
      simp only [tbmEvent64]; rw [h.window, if_neg ht, h.top64, h.bottom64, h.minRet]; rfl
    rw [e1, e2] at heq ⊢
    simp only [Option.some.injEq] at heq
    have hn : TbmNear A A64 := loop_near h logc tgt hT hB t1 _ _ _ (tbmPath_sorted ts i0 p.vertical)
      (fun j hj => (tbmPath_le ts i0 p.vertical j hj).2)
      ⟨by simp [f64_zero], le_refl _, le_refl _, Nr.refl _ _ (le_refl _) (by norm_num), Nr.refl _ _ (le_refl _) (by norm_num)⟩
      rfl rfl heq.symm
    refine ⟨?_, ?_, ?_, ?_⟩
    · simp [hn.ret]
    · intro hl
      simp only at hl
      cases isMeta with
      | false =>
        exfalso
        apply hl
        simp only [tbmLabel, Bool.false_eq_true, if_false, hn.ret, gt_iff_lt, f64_pos_iff, f64_neg_iff]
      | true =>
        refine ⟨rfl, A.ret, rfl, ?_⟩
        simp only [tbmLabel, if_true, hn.ret, ge_iff_le] at hl
        by_cases hc : p.minRet ≤ A.ret
        · exfalso
          have := f64_mono hc
          rw [h.minRet64] at this
          rw [if_pos hc, if_pos this] at hl
          exact hl rfl
        · refine ⟨not_le.mp hc, ?_⟩
          by_cases hd : p.minRet ≤ f64 A.ret
          · refine le_antisymm ?_ hd
            have := f64_mono (not_le.mp hc).le
            rwa [h.minRet64] at this
          · rw [if_neg hc, if_neg hd] at hl
            exact absurd rfl hl
    · intro x hx
      simp only [tbmRatio] at hx
      simp only [tbmRatio64, hn.ret, gt_iff_lt, f64_pos_iff]
      rw [heq]
      have hU : 0 ≤ A64.maxU := hn.u.nonneg hn.u0 (by norm_num)
      have hL : 0 ≤ A64.maxL := hn.l.nonneg hn.l0 (by norm_num)
      by_cases htt : A.touch.getD t1 = t1
      · rw [if_pos htt] at hx ⊢
        by_cases hr : A.ret > 0
        · rw [if_pos hr] at hx ⊢
          rw [valid_scale, Option.isSome_map]
          by_cases hv : (Ext.fin (tgt * T)).valid.isSome = true
          · rw [if_pos hv] at hx ⊢
            rw [Option.some.injEq] at hx
            subst hx
            exact ⟨_, rfl, ratio_near hn.u0 hn.l0 hn.u hn.l,
              le_min (f64_nonneg (div_nonneg hU (f64_nonneg (by linarith)))) (by norm_num), min_le_right _ _⟩
          · rw [if_neg hv] at hx; cases hx
        · rw [if_neg hr] at hx ⊢
          rw [valid_scale, Option.isSome_map]
          by_cases hv : (Ext.fin (-tgt * B)).valid.isSome = true
          · rw [if_pos hv] at hx ⊢
            rw [Option.some.injEq] at hx
            subst hx
            exact ⟨_, rfl, ratio_near hn.l0 hn.u0 hn.l hn.u,
              le_min (f64_nonneg (div_nonneg hL (f64_nonneg (by linarith)))) (by norm_num), min_le_right _ _⟩
          · rw [if_neg hv] at hx; cases hx
      · rw [if_neg htt] at hx ⊢
        rw [Option.some.injEq] at hx
        subst hx
        exact ⟨1, rfl, by norm_num, by norm_num, le_refl _⟩
    · intro hx
      simp only [tbmRatio] at hx
      simp only [tbmRatio64, hn.ret, gt_iff_lt, f64_pos_iff]
      rw [heq]
      by_cases htt : A.touch.getD t1 = t1
      · rw [if_pos htt] at hx ⊢
        by_cases hr : A.ret > 0
        · rw [if_pos hr] at hx ⊢
          rw [valid_scale, Option.isSome_map]
          by_cases hv : (Ext.fin (tgt * T)).valid.isSome = true
          · rw [if_pos hv] at hx; cases hx
          · rw [if_neg hv]
        · rw [if_neg hr] at hx ⊢
          rw [valid_scale, Option.isSome_map]
          by_cases hv : (Ext.fin (-tgt * B)).valid.isSome = true
          · rw [if_pos hv] at hx; cases hx
          · rw [if_neg hv]
      · rw [if_neg htt] at hx; cases hx

/-- **C101.** If the log prices are float64 numbers within a factor of two of the log price at the event, the returns are exact;
only the barriers are rounded, so the float64 touch is the first bar that reaches the rounded barrier. -/
theorem C101_exact_returns (lc base : ℚ) (side : Int) (hs : side = 1 ∨ side = -1) (hl : f64 lc = lc) (hb : f64 base = base)
    (h1 : base ≤ 2 * lc) (h2 : lc ≤ 2 * base) : tbmRet64 lc base side = (lc - base) * (side : ℚ) := by
  rw [tbmRet64_eq _ _ _ hs]
  have := f64_sub_exact lc base hl hb h1 h2
  rcases hs with rfl | rfl
  · simpa using this
  · simp only [Int.cast_neg, Int.cast_one, mul_neg_one, f64_neg, this]

example : f64 3 = 3 ∧ f64 (5 / 2) = 5 / 2 ∧ (5 / 2 : ℚ) ≤ 2 * 3 ∧ (3 : ℚ) ≤ 2 * (5 / 2) ∧ tbmRet64 3 (5 / 2) (-1) = -(1 / 2) := by decide +kernel

/-- Three bars a minute apart; the barriers are five times the target and the window is two minutes. -/
def flipParams : TbmParams ℚ := ⟨.fin 5, .fin 5, some 120000000000, 0, 0⟩

/-- The same in the caller's units. -/
def flipParams64 : TbmParams64 := ⟨.fin 5, .fin 5, some 120, 0, 0⟩

theorem flip_match (side : Int) (hs : side = 1 ∨ side = -1) :
    TbmMatch flipParams flipParams64 [0, 60000000000, 120000000000] 0 side 5 5 where
  side := hs
  top := rfl
  bottom := rfl
  top64 := rfl
  bottom64 := rfl
  window := by decide +kernel
  minClose := by norm_num [flipParams, flipParams64]
  minCloseRange := by norm_num [flipParams]
  durations := by
    intro j
    match j with
    | 0 => norm_num
    | 1 => norm_num
    | 2 => norm_num
    | j + 3 => simp
  minRet := rfl
  minRet64 := by simp [flipParams, f64_zero]

/-- **C101.** Violation of exact equality: the rounded barrier is below the exact one, the path reaches the former and not the
latter, and then falls to the other barrier; the float64 label is 1, the exact one -1. -/
theorem C101_label_flips :
    let tgt : ℚ := 1 / 2 + 1 / 2 ^ 53
    let lc : List ℚ := [0, 5 / 2 + 1 / 2 ^ 51, -3]
    f64 tgt = tgt ∧ lc.map f64 = lc ∧
    (tbmEvent flipParams [0, 60000000000, 120000000000] lc false 0 tgt 1).label = -1 ∧
    (tbmEvent64 flipParams64 [0, 60000000000, 120000000000] lc false 0 tgt 1).label = 1 ∧
    (tbmEvent flipParams [0, 60000000000, 120000000000] lc false 0 tgt 1).touch = some 2 ∧
    (tbmEvent64 flipParams64 [0, 60000000000, 120000000000] lc false 0 tgt 1).touch = some 1 := by
  decide +kernel

/-- Non-vacuity: an event that stops at the same bar in both computations, with a ratio below 1. -/
example :
    let lc : List ℚ := [4, 17 / 4, 33 / 8]
    (tbmEvent flipParams [0, 60000000000, 120000000000] lc false 0 (1 / 2) 1).touch = some 2 ∧
    (tbmEvent64 flipParams64 [0, 60000000000, 120000000000] lc false 0 (1 / 2) 1).touch = some 2 ∧
    (tbmEvent flipParams [0, 60000000000, 120000000000] lc false 0 (1 / 2) 1).ratio = some (1 / 10) ∧
    (tbmEvent64 flipParams64 [0, 60000000000, 120000000000] lc false 0 (1 / 2) 1).ratio = some (f64 (1 / 10)) := by
  decide +kernel

end FinML
