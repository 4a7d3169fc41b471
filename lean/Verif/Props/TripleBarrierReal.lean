/-
C145: triple barrier labels computed from float64 prices against the real logarithms of the prices.
-/
import Verif.Props.TripleBarrier64
import Verif.Props.Cusum64

set_option linter.unusedSectionVars false

namespace FinML

/-- A multiplier as a real number. -/
def Ext.toReal : Ext ℚ → Ext ℝ
  | .fin x => .fin (x : ℝ)
  | .pinf => .pinf
  | .ninf => .ninf
  | .nan => .nan

/-- The real return `r` is more than `δ`, and the rounding of the barrier, away from the barrier `t * m`. -/
def Ext.clearOf (t : ℚ) (r δ : ℝ) : Ext ℚ → Prop
  | .fin x => δ + |(t * x : ℝ)| / 2 ^ 53 < |r - t * x|
  | _ => True

theorem scale_toReal (t : ℚ) (m : Ext ℚ) : m.toReal.scale (t : ℝ) = (m.scale t).toReal := by
  cases m <;> simp only [Ext.toReal, Ext.scale, Rat.cast_mul, Rat.cast_pos, Rat.cast_lt_zero]
  · split
    · rfl
    · split <;> rfl
  · split
    · rfl
    · split <;> rfl

theorem clear_side {r r64 b b64 δ η : ℝ} (h1 : |r64 - r| ≤ δ) (h2 : |b64 - b| ≤ η) (h : δ + η < |r - b|) :
    (b64 ≤ r64 ↔ b ≤ r) ∧ (r64 ≤ b64 ↔ r ≤ b) := by
  rw [abs_le] at h1 h2
  rcases le_total b r with hb | hb
  · rw [abs_of_nonneg (by linarith)] at h
    constructor <;> constructor <;> intro _ <;> linarith [h1.1, h1.2, h2.1, h2.2]
  · rw [abs_of_nonpos (by linarith)] at h
    constructor <;> constructor <;> intro _ <;> linarith [h1.1, h1.2, h2.1, h2.2]

theorem f64_relErr_real (x : ℚ) : |(f64 x : ℝ) - x| ≤ |(x : ℝ)| / 2 ^ 53 := by
  have h := (Rat.cast_le (K := ℝ)).mpr (f64_relErr x)
  push_cast at h
  exact h

theorem hit_clear (t : ℚ) (m : Ext ℚ) (r : ℝ) (r64 : ℚ) (δ : ℝ) (h1 : |(r64 : ℝ) - r| ≤ δ) (hc : m.clearOf t r δ) :
    (m.scale64 t).leFin r64 = (m.toReal.scale (t : ℝ)).leFin r ∧ (m.scale64 t).geFin r64 = (m.toReal.scale (t : ℝ)).geFin r := by
  rw [scale_toReal]
  cases m with
  | fin x =>
    have h2 := f64_relErr_real (t * x)
    push_cast at h2
    obtain ⟨a, b⟩ := clear_side h1 h2 hc
    simp only [Ext.scale64, Ext.scale, Ext.toReal, Ext.leFin, Ext.geFin, decide_eq_decide]
    push_cast
    exact ⟨by rw [← a]; exact_mod_cast Iff.rfl, by rw [← b]; exact_mod_cast Iff.rfl⟩
  | pinf =>
    simp only [Ext.scale64, Ext.scale]
    split
    · exact ⟨rfl, rfl⟩
    · split <;> exact ⟨rfl, rfl⟩
  | ninf =>
    simp only [Ext.scale64, Ext.scale]
    split
    · exact ⟨rfl, rfl⟩
    · split <;> exact ⟨rfl, rfl⟩
  | nan => exact ⟨rfl, rfl⟩

/-- The two loops side by side. -/
theorem loop_real (ts : List Int) (lc : List ℚ) (LC : List ℝ) (t0 mc : Int) (mc64 : ℚ) (side : Int) (base : ℚ) (BASE : ℝ)
    (ub64 lb64 : Ext ℚ) (ub lb : Ext ℝ) (δ : ℝ) (js : List Nat)
    (hmc : ∀ j ∈ js, f64 ((ts.getD j 0 - t0 : Int) : ℚ) < mc64 ↔ ts.getD j 0 - t0 < mc)
    (hret : ∀ j ∈ js, |((tbmRet64 (lc.getD j 0) base side : ℚ) : ℝ) - (LC.getD j 0 - BASE) * side| ≤ δ)
    (hhit : ∀ j ∈ js, mc ≤ ts.getD j 0 - t0 →
      (ub64.leFin (tbmRet64 (lc.getD j 0) base side) || lb64.geFin (tbmRet64 (lc.getD j 0) base side)) =
      (ub.leFin ((LC.getD j 0 - BASE) * side) || lb.geFin ((LC.getD j 0 - BASE) * side))) :
    ∀ (a : TbmAcc ℝ) (b : TbmAcc ℚ), a.touch = b.touch → |(b.ret : ℝ) - a.ret| ≤ δ →
    (tbmLoop64 ts lc t0 mc64 side base ub64 lb64 js b).touch = (tbmLoop ts LC t0 mc (side : ℝ) BASE ub lb js a).touch ∧
    |((tbmLoop64 ts lc t0 mc64 side base ub64 lb64 js b).ret : ℝ) - (tbmLoop ts LC t0 mc (side : ℝ) BASE ub lb js a).ret| ≤ δ := by
  induction js with
  | nil => intro a b h1 h2; exact ⟨h1.symm, h2⟩
  | cons j js ih =>
    intro a b h1 h2
    have ih' := ih (fun k hk => hmc k (List.mem_cons_of_mem _ hk)) (fun k hk => hret k (List.mem_cons_of_mem _ hk))
      (fun k hk => hhit k (List.mem_cons_of_mem _ hk))
    simp only [tbmLoop64, tbmLoop]
    by_cases hs : ts.getD j 0 - t0 < mc
    · rw [if_pos hs, if_pos ((hmc j (by simp)).mpr hs)]
      exact ih' a b h1 h2
    · rw [if_neg hs, if_neg (fun h => hs ((hmc j (by simp)).mp h)), hhit j (by simp) (not_lt.mp hs)]
      have hr := hret j (by simp)
      split
      · refine ⟨rfl, ?_⟩
        show |((tbmProgress64 _ _ _ _).ret : ℝ) - (tbmProgress _ _ _ _).ret| ≤ δ
        rw [(tbmProgress64_touch _ _ _ _).2, (tbmProgress_touch _ _ _ _).2]
        exact hr
      · apply ih'
        · rw [(tbmProgress64_touch _ _ _ _).1, (tbmProgress_touch _ _ _ _).1]
          exact h1
        · rw [(tbmProgress64_touch _ _ _ _).2, (tbmProgress_touch _ _ _ _).2]
          exact hr

/-- The parameters of an event in real arithmetic. -/
def TbmParams.toReal (p : TbmParams ℚ) : TbmParams ℝ :=
  { bottom := p.bottom.toReal, top := p.top.toReal, vertical := p.vertical, minClose := p.minClose, minRet := (p.minRet : ℝ) }

/-- What ties the float64 call to the real one: the same multipliers (possibly infinite), a side of 1 or -1, the same window (C87 says
when), the same minimum time, durations below `2^53` nanoseconds. -/
structure TbmSame (p : TbmParams ℚ) (p64 : TbmParams64) (ts : List Int) (i0 : Nat) (side : Int) : Prop where
  side : side = 1 ∨ side = -1
  top : p64.top = p.top
  bottom : p64.bottom = p.bottom
  window : verticalIdxOpt64 ts (ts.getD i0 0) p64.vertical = verticalIdx ts (ts.getD i0 0) p.vertical
  minClose : p64.minCloseSec * 1000000000 = (p.minClose : ℚ)
  minCloseRange : |p.minClose| ≤ 2 ^ 53
  durations : ∀ j, |ts.getD j 0 - ts.getD i0 0| ≤ 2 ^ 53
  minRet : p64.minRet = p.minRet

/-- The real return of the event at bar `j`. -/
noncomputable def realRet (prices : List ℚ) (i0 : Nat) (side : Int) (j : Nat) : ℝ :=
  (((toReals prices).map Real.log).getD j 0 - ((toReals prices).map Real.log).getD i0 0) * side

theorem log_lists (log64 : ℚ → ℚ) (hlog : LogAccurate log64) (prices : List ℚ) (hpos : ∀ p ∈ prices, 0 < p) (M : ℝ) (hM0 : 0 ≤ M)
    (hM : ∀ p ∈ prices, |Real.log p| ≤ M) (j : Nat) :
    |(((prices.map log64).getD j 0 : ℚ) : ℝ) - ((toReals prices).map Real.log).getD j 0| ≤ M / 2 ^ 52 ∧
    |((toReals prices).map Real.log).getD j 0| ≤ M := by
  unfold toReals
  simp only [List.getD_eq_getElem?_getD, List.getElem?_map]
  cases h : prices[j]? with
  | none =>
    simp only [Option.map_none, Option.getD_none, Rat.cast_zero, sub_zero, abs_zero]
    exact ⟨by positivity, hM0⟩
  | some p =>
    have hm := List.mem_of_getElem? h
    simp only [Option.map_some, Option.getD_some]
    refine ⟨(hlog p (hpos p hm)).trans ?_, hM p hm⟩
    exact div_le_div_of_nonneg_right (hM p hm) (by positivity)

theorem real_ret_err {lc base : ℚ} {LC BASE M : ℝ} (side : Int) (hs : side = 1 ∨ side = -1) (h1 : |(lc : ℝ) - LC| ≤ M / 2 ^ 52)
    (h2 : |(base : ℝ) - BASE| ≤ M / 2 ^ 52) (h3 : |LC| ≤ M) (h4 : |BASE| ≤ M) :
    |((tbmRet64 lc base side : ℚ) : ℝ) - (LC - BASE) * side| ≤ M / 2 ^ 50 := by
  rw [tbmRet64_eq _ _ _ hs]
  have hM : 0 ≤ M := (abs_nonneg _).trans h3
  have e := f64_relErr_real ((lc - base) * (side : ℚ))
  push_cast at e
  have hs1 : |(side : ℝ)| = 1 := by rcases hs with rfl | rfl <;> simp
  rw [abs_mul, hs1, mul_one] at e
  have d : |((lc : ℝ) - base) * side - (LC - BASE) * side| ≤ 2 * (M / 2 ^ 52) := by
    rw [← sub_mul, abs_mul, hs1, mul_one]
    have : ((lc : ℝ) - base) - (LC - BASE) = (lc - LC) - (base - BASE) := by ring
    rw [this]
    have := abs_sub ((lc : ℝ) - LC) (base - BASE)
    linarith
  have sz : |(lc : ℝ) - base| ≤ 2 * M + 2 * (M / 2 ^ 52) := by
    have a : (lc : ℝ) - base = (lc - LC) + (LC - BASE) + (BASE - base) := by ring
    rw [a]
    have t1 := abs_add_le ((lc : ℝ) - LC + (LC - BASE)) (BASE - base)
    have t2 := abs_add_le ((lc : ℝ) - LC) (LC - BASE)
    have t3 := abs_sub LC BASE
    have t4 : |BASE - (base : ℝ)| ≤ M / 2 ^ 52 := by rw [abs_sub_comm]; exact h2
    linarith
  have t := abs_sub_le ((f64 ((lc - base) * (side : ℚ)) : ℚ) : ℝ) (((lc : ℝ) - base) * side) ((LC - BASE) * side)
  have k : (2 * M + 2 * (M / 2 ^ 52)) / 2 ^ 53 + 2 * (M / 2 ^ 52) ≤ M / 2 ^ 50 := by
    have : (2 * M + 2 * (M / 2 ^ 52)) / 2 ^ 53 + 2 * (M / 2 ^ 52) = M * ((2 + 2 / 2 ^ 52) / 2 ^ 53 + 2 / 2 ^ 52) := by ring
    rw [this, div_eq_mul_inv]
    exact mul_le_mul_of_nonneg_left (by norm_num) hM
  have e2 : |(lc : ℝ) - base| / 2 ^ 53 ≤ (2 * M + 2 * (M / 2 ^ 52)) / 2 ^ 53 := div_le_div_of_nonneg_right sz (by positivity)
  linarith

theorem event_real (log64 : ℚ → ℚ) (hlog : LogAccurate log64) (p : TbmParams ℚ) (p64 : TbmParams64) (ts : List Int) (prices : List ℚ)
    (i0 : Nat) (tgt : ℚ) (side : Int) (h : TbmSame p p64 ts i0 side) (hpos : ∀ q ∈ prices, 0 < q) (M : ℝ) (hM0 : 0 ≤ M)
    (hM : ∀ q ∈ prices, |Real.log q| ≤ M)
    (hclear : ∀ j ∈ tbmPath ts i0 p.vertical, p.minClose ≤ ts.getD j 0 - ts.getD i0 0 →
      p.top.clearOf tgt (realRet prices i0 side j) (M / 2 ^ 50) ∧ p.bottom.clearOf (-tgt) (realRet prices i0 side j) (M / 2 ^ 50)) :
    let f := tbmLoop64 ts (prices.map log64) (ts.getD i0 0) (f64 (p64.minCloseSec * 1000000000)) side ((prices.map log64).getD i0 0)
      (p64.top.scale64 tgt) (p64.bottom.scale64 (-tgt)) (tbmPath ts i0 p.vertical) ⟨none, 0, 0, 0⟩
    let r := tbmLoop ts ((toReals prices).map Real.log) (ts.getD i0 0) p.minClose (side : ℝ) (((toReals prices).map Real.log).getD i0 0)
      (p.top.toReal.scale (tgt : ℝ)) (p.bottom.toReal.scale (-(tgt : ℝ))) (tbmPath ts i0 p.vertical) ⟨none, 0, 0, 0⟩
    f.touch = r.touch ∧ |(f.ret : ℝ) - r.ret| ≤ M / 2 ^ 50 := by
  have L := log_lists log64 hlog prices hpos M hM0 hM
  have hret : ∀ j ∈ tbmPath ts i0 p.vertical,
      |((tbmRet64 ((prices.map log64).getD j 0) ((prices.map log64).getD i0 0) side : ℚ) : ℝ) - realRet prices i0 side j| ≤ M / 2 ^ 50 :=
    fun j _ => real_ret_err side h.side (L j).1 (L i0).1 (L j).2 (L i0).2
  apply loop_real
  · intro j _
    rw [h.minClose, f64_int _ (h.durations j), f64_int _ h.minCloseRange]
    exact Int.cast_lt
  · exact hret
  · intro j hj he
    obtain ⟨c1, c2⟩ := hclear j hj he
    have a := (hit_clear tgt p.top _ _ _ (hret j hj) c1).1
    have b := (hit_clear (-tgt) p.bottom _ _ _ (hret j hj) c2).2
    rw [h.top, h.bottom, a, b, Rat.cast_neg]
    rfl
  · rfl
  · show |((0 : ℚ) : ℝ) - 0| ≤ _
    rw [Rat.cast_zero, sub_zero, abs_zero]
    positivity

/-- **C145.** Let `M` bound the absolute logarithms of the prices. If no examined bar has a real log return within `M / 2^50`, plus the
rounding of the barrier, of a barrier, then the float64 labelling skips the same events, touches at the same bar, and reports the real log
return up to `M / 2^50`. -/
theorem C145_touch (log64 : ℚ → ℚ) (hlog : LogAccurate log64) (p : TbmParams ℚ) (p64 : TbmParams64) (ts : List Int) (prices : List ℚ)
    (isMeta : Bool) (i0 : Nat) (tgt : ℚ) (side : Int) (h : TbmSame p p64 ts i0 side) (hpos : ∀ q ∈ prices, 0 < q) (M : ℝ) (hM0 : 0 ≤ M)
    (hM : ∀ q ∈ prices, |Real.log q| ≤ M)
    (hclear : ∀ j ∈ tbmPath ts i0 p.vertical, p.minClose ≤ ts.getD j 0 - ts.getD i0 0 →
      p.top.clearOf tgt (realRet prices i0 side j) (M / 2 ^ 50) ∧ p.bottom.clearOf (-tgt) (realRet prices i0 side j) (M / 2 ^ 50)) :
    let f := tbmEvent64 p64 ts (prices.map log64) isMeta i0 tgt side
    let r := tbmEvent p.toReal ts ((toReals prices).map Real.log) isMeta i0 (tgt : ℝ) side
    f.touch = r.touch ∧ ((f.ret = none ∧ r.ret = none ∧ f.label = 0 ∧ r.label = 0) ∨
      ∃ x y, f.ret = some x ∧ r.ret = some y ∧ |(x : ℝ) - y| ≤ M / 2 ^ 50 ∧
        f.label = tbmLabel isMeta p.minRet x ∧ r.label = tbmLabel isMeta (p.minRet : ℝ) y) := by
  have E := event_real log64 hlog p p64 ts prices i0 tgt side h hpos M hM0 hM hclear
  intro f r
  by_cases ht : verticalIdx ts (ts.getD i0 0) p.vertical ≤ (i0 : Int)
  · have hf : f = ⟨0, none, none, none⟩ := by
      show tbmEvent64 _ _ _ _ _ _ _ = _
      simp only [tbmEvent64]
      rw [h.window, if_pos ht]
    have hr : r = ⟨0, none, none, none⟩ := by
      show tbmEvent _ _ _ _ _ _ _ = _
      simp only [tbmEvent]
      exact if_pos ht
    rw [hf, hr]
    exact ⟨rfl, Or.inl ⟨rfl, rfl, rfl, rfl⟩⟩
  · have hf : f = tbmEvent64 p64 ts (prices.map log64) isMeta i0 tgt side := rfl
    have hr : r = tbmEvent p.toReal ts ((toReals prices).map Real.log) isMeta i0 (tgt : ℝ) side := rfl
    clear_value f r
    simp only [tbmEvent64] at hf
    simp only [tbmEvent] at hr
    rw [h.window, if_neg ht] at hf
    have ht' : ¬ verticalIdx ts (ts.getD i0 0) p.toReal.vertical ≤ (i0 : Int) := ht
    rw [if_neg ht'] at hr
    obtain ⟨e1, e2⟩ := E
    rw [hf, hr]
    refine ⟨?_, Or.inr ⟨_, _, rfl, rfl, e2, ?_, rfl⟩⟩
    · show some (Option.getD _ _) = some (Option.getD _ _)
      exact congrArg (fun o : Option Nat => some (o.getD (verticalIdx ts (ts.getD i0 0) p.vertical).toNat)) e1
    · rw [h.minRet]

/-- **C145.** Under the same condition the label is that of the real log return unless that return is within `M / 2^50` of 0 (or, for
meta-labels, of the minimum return). -/
theorem C145_label (log64 : ℚ → ℚ) (hlog : LogAccurate log64) (p : TbmParams ℚ) (p64 : TbmParams64) (ts : List Int) (prices : List ℚ)
    (isMeta : Bool) (i0 : Nat) (tgt : ℚ) (side : Int) (h : TbmSame p p64 ts i0 side) (hpos : ∀ q ∈ prices, 0 < q) (M : ℝ) (hM0 : 0 ≤ M)
    (hM : ∀ q ∈ prices, |Real.log q| ≤ M)
    (hclear : ∀ j ∈ tbmPath ts i0 p.vertical, p.minClose ≤ ts.getD j 0 - ts.getD i0 0 →
      p.top.clearOf tgt (realRet prices i0 side j) (M / 2 ^ 50) ∧ p.bottom.clearOf (-tgt) (realRet prices i0 side j) (M / 2 ^ 50))
    (hr : ∀ y, (tbmEvent p.toReal ts ((toReals prices).map Real.log) isMeta i0 (tgt : ℝ) side).ret = some y →
      M / 2 ^ 50 < |y - if isMeta then (p.minRet : ℝ) else 0|) :
    (tbmEvent64 p64 ts (prices.map log64) isMeta i0 tgt side).label =
      (tbmEvent p.toReal ts ((toReals prices).map Real.log) isMeta i0 (tgt : ℝ) side).label := by
  obtain ⟨_, ht | ⟨x, y, _, hy, hxy, l1, l2⟩⟩ := C145_touch log64 hlog p p64 ts prices isMeta i0 tgt side h hpos M hM0 hM hclear
  · rw [ht.2.2.1, ht.2.2.2]
  · have hc := hr y hy
    rw [l1, l2]
    unfold tbmLabel
    cases isMeta with
    | true =>
      simp only [if_true] at hc ⊢
      have := (clear_side (b := (p.minRet : ℝ)) (b64 := (p.minRet : ℝ)) (η := 0) hxy (by simp) (by linarith)).1
      have e : x ≥ p.minRet ↔ y ≥ (p.minRet : ℝ) := by
        rw [ge_iff_le, ge_iff_le, ← this]; exact_mod_cast Iff.rfl
      simp only [e]
    | false =>
      simp only [Bool.false_eq_true, if_false] at hc ⊢
      have := clear_side (b := (0 : ℝ)) (b64 := (0 : ℝ)) (η := 0) hxy (by simp) (by linarith)
      have e1 : x > 0 ↔ y > 0 := by
        rw [gt_iff_lt, gt_iff_lt, ← not_le, ← not_le, ← this.2]; exact_mod_cast Iff.rfl
      have e2 : x < 0 ↔ y < 0 := by
        rw [← not_le, ← not_le, ← this.1]; exact_mod_cast Iff.rfl
      simp only [e1, e2]

/-- **C145.** At a finite barrier on the right side of 0 nothing more is needed: when some examined bar reaches a barrier, the plus or minus
one label is the real one. -/
theorem C145_label_at_touch (log64 : ℚ → ℚ) (hlog : LogAccurate log64) (p : TbmParams ℚ) (p64 : TbmParams64) (ts : List Int)
    (prices : List ℚ) (i0 : Nat) (tgt T B : ℚ) (side : Int) (h : TbmSame p p64 ts i0 side) (hpos : ∀ q ∈ prices, 0 < q) (M : ℝ)
    (hM0 : 0 ≤ M) (hM : ∀ q ∈ prices, |Real.log q| ≤ M) (hT : p.top = .fin T) (hB : p.bottom = .fin B) (hT0 : 0 ≤ tgt * T)
    (hB0 : 0 ≤ tgt * B)
    (hclear : ∀ j ∈ tbmPath ts i0 p.vertical, p.minClose ≤ ts.getD j 0 - ts.getD i0 0 →
      p.top.clearOf tgt (realRet prices i0 side j) (M / 2 ^ 50) ∧ p.bottom.clearOf (-tgt) (realRet prices i0 side j) (M / 2 ^ 50))
    (hhit : ∃ j ∈ tbmPath ts i0 p.vertical, p.minClose ≤ ts.getD j 0 - ts.getD i0 0 ∧
      ((tgt * T : ℝ) ≤ realRet prices i0 side j ∨ realRet prices i0 side j ≤ -(tgt * B : ℝ))) :
    (tbmEvent64 p64 ts (prices.map log64) false i0 tgt side).label =
      (tbmEvent p.toReal ts ((toReals prices).map Real.log) false i0 (tgt : ℝ) side).label := by
  refine C145_label log64 hlog p p64 ts prices false i0 tgt side h hpos M hM0 hM hclear (fun y hy => ?_)
  rw [if_neg (by simp), sub_zero]
  have hT' : (0 : ℝ) ≤ tgt * T := by exact_mod_cast hT0
  have hB' : (0 : ℝ) ≤ tgt * B := by exact_mod_cast hB0
  have hsc : ∀ r : ℝ, ((p.toReal.top.scale (tgt : ℝ)).leFin r || (p.toReal.bottom.scale (-(tgt : ℝ))).geFin r) = true ↔
      (tgt * T : ℝ) ≤ r ∨ r ≤ -(tgt * B : ℝ) := by
    intro r
    simp only [TbmParams.toReal, hT, hB, Ext.toReal, Ext.scale, Ext.leFin, Ext.geFin, Bool.or_eq_true, decide_eq_true_eq, neg_mul]
  obtain ⟨j0, hj0, he0, hh0⟩ := hhit
  simp only [tbmEvent] at hy
  by_cases ht : verticalIdx ts (ts.getD i0 0) p.toReal.vertical ≤ (i0 : Int)
  · rw [if_pos ht] at hy
    exact absurd hy (by simp)
  · rw [if_neg ht] at hy
    have hs := tbmLoop_spec ts ((toReals prices).map Real.log) (ts.getD i0 0) p.toReal.minClose (side : ℝ)
      (((toReals prices).map Real.log).getD i0 0) (p.toReal.top.scale (tgt : ℝ)) (p.toReal.bottom.scale (-(tgt : ℝ)))
      (tbmPath ts i0 p.vertical) ⟨none, 0, 0, 0⟩ rfl
    have hy' := Option.some.inj hy
    rcases hs with ⟨pre, j, post, h1, h2, h3, _, _, h6⟩ | ⟨h1, _⟩
    · have hy2 : y = realRet prices i0 side j := hy'.symm.trans h6
      have hj : j ∈ tbmPath ts i0 p.vertical := by rw [h1]; simp
      obtain ⟨c1, c2⟩ := hclear j hj h2
      rw [hT] at c1
      rw [hB] at c2
      simp only [Ext.clearOf, Rat.cast_neg, neg_mul, abs_neg, sub_neg_eq_add] at c1 c2
      have q1 : 0 ≤ |(tgt * T : ℝ)| / 2 ^ 53 := by positivity
      have q2 : 0 ≤ |(tgt * B : ℝ)| / 2 ^ 53 := by positivity
      rw [hy2]
      rcases (hsc _).mp h3 with hu | hl
      · have hu' : (tgt * T : ℝ) ≤ realRet prices i0 side j := hu
        rw [abs_of_nonneg (by linarith : 0 ≤ realRet prices i0 side j - tgt * T)] at c1
        rw [abs_of_nonneg (by linarith)]
        linarith
      · have hl' : realRet prices i0 side j ≤ -(tgt * B : ℝ) := hl
        rw [abs_of_nonpos (by linarith : realRet prices i0 side j + tgt * B ≤ 0)] at c2
        rw [abs_of_nonpos (by linarith)]
        linarith
    · exact absurd ((hsc _).mpr hh0) (h1 j0 hj0 he0)

/-- One bar after another a minute apart, barriers at the target, no vertical barrier. -/
def doubleParams : TbmParams ℚ := ⟨.fin 1, .fin 1, none, 0, 0⟩

/-- The same in the caller's units. -/
def doubleParams64 : TbmParams64 := ⟨.fin 1, .fin 1, none, 0, 0⟩

theorem double_same : TbmSame doubleParams doubleParams64 [0, 60000000000] 0 1 where
  side := Or.inl rfl
  top := rfl
  bottom := rfl
  window := rfl
  minClose := by decide +kernel
  minCloseRange := by decide +kernel
  durations := fun j => by
    rcases j with _ | _ | j <;> simp
  minRet := rfl

theorem double_ret : realRet [1, 2] 0 1 1 = Real.log 2 := by
  simp [realRet, toReals]

theorem double_clear : ∀ j ∈ tbmPath [0, 60000000000] 0 doubleParams.vertical,
    doubleParams.minClose ≤ ([0, 60000000000] : List Int).getD j 0 - ([0, 60000000000] : List Int).getD 0 0 →
      doubleParams.top.clearOf (1 / 2) (realRet [1, 2] 0 1 j) (1 / 2 ^ 50) ∧
      doubleParams.bottom.clearOf (-(1 / 2)) (realRet [1, 2] 0 1 j) (1 / 2 ^ 50) := by
  intro j hj _
  have h2 := Real.log_two_gt_d9
  have hp : tbmPath [0, 60000000000] 0 doubleParams.vertical = [1] := by decide +kernel
  rw [hp, List.mem_singleton] at hj
  rw [hj, double_ret]
  simp only [doubleParams, Ext.clearOf]
  push_cast
  constructor
  · rw [abs_of_pos (by norm_num), abs_of_pos (by norm_num; linarith)]
    norm_num
    linarith
  · rw [abs_of_neg (by norm_num), abs_of_pos (by norm_num; linarith)]
    norm_num
    linarith

/-- A price that doubles, with barriers at one half: touched at bar 1 with label 1 in real arithmetic and in float64. -/
example (log64 : ℚ → ℚ) (hlog : LogAccurate log64) :
    (tbmEvent64 doubleParams64 [0, 60000000000] ([1, 2].map log64) false 0 (1 / 2) 1).touch =
      (tbmEvent doubleParams.toReal [0, 60000000000] ((toReals [1, 2]).map Real.log) false 0 ((1 / 2 : ℚ) : ℝ) 1).touch ∧
    (tbmEvent64 doubleParams64 [0, 60000000000] ([1, 2].map log64) false 0 (1 / 2) 1).label =
      (tbmEvent doubleParams.toReal [0, 60000000000] ((toReals [1, 2]).map Real.log) false 0 ((1 / 2 : ℚ) : ℝ) 1).label := by
  have h2 := Real.log_two_gt_d9
  have h3 := Real.log_two_lt_d9
  have hM : ∀ q ∈ ([1, 2] : List ℚ), |Real.log q| ≤ 1 := by
    intro q hq
    simp only [List.mem_cons, List.not_mem_nil, or_false] at hq
    rcases hq with rfl | rfl
    · simp
    · rw [show (((2 : ℚ)) : ℝ) = 2 by norm_num, abs_of_pos (by linarith)]
      linarith
  refine ⟨(C145_touch log64 hlog _ _ _ _ false 0 _ 1 double_same (by simp) 1 zero_le_one hM double_clear).1,
    C145_label_at_touch log64 hlog _ _ _ _ 0 _ 1 1 1 double_same (by simp) 1 zero_le_one hM rfl rfl (by norm_num) (by norm_num)
      double_clear ⟨1, by decide +kernel, by decide +kernel, Or.inl ?_⟩⟩
  rw [double_ret]
  push_cast
  linarith

/-- The condition of `C145_label` on the same path for meta-labels: the real return is `log 2`, well above the minimum return 0. -/
example : ∀ y, (tbmEvent doubleParams.toReal [0, 60000000000] ((toReals [1, 2]).map Real.log) true 0 ((1 / 2 : ℚ) : ℝ) 1).ret = some y →
    (1 : ℝ) / 2 ^ 50 < |y - if true then (doubleParams.minRet : ℝ) else 0| := by
  intro y hy
  have h2 := Real.log_two_gt_d9
  have hv : ¬ verticalIdx [0, 60000000000] (([0, 60000000000] : List Int).getD 0 0) doubleParams.toReal.vertical ≤ ((0 : Nat) : Int) := by
    decide +kernel
  have hp : List.range' (0 + 1) ((verticalIdx [0, 60000000000] (([0, 60000000000] : List Int).getD 0 0)
      doubleParams.toReal.vertical).toNat - 0) = [1] := by decide +kernel
  simp only [tbmEvent] at hy
  rw [if_neg hv, hp] at hy
  have hs := tbmLoop_spec [0, 60000000000] ((toReals [1, 2]).map Real.log) (([0, 60000000000] : List Int).getD 0 0)
    doubleParams.toReal.minClose ((1 : Int) : ℝ) (((toReals [1, 2]).map Real.log).getD 0 0)
    (doubleParams.toReal.top.scale ((1 / 2 : ℚ) : ℝ)) (doubleParams.toReal.bottom.scale (-((1 / 2 : ℚ) : ℝ))) [1] ⟨none, 0, 0, 0⟩ rfl
  have hy' := Option.some.inj hy
  have hret : y = Real.log 2 := by
    rw [← double_ret, ← hy']
    rcases hs with ⟨pre, j, post, h1, _, _, _, _, h6⟩ | ⟨_, _, _, h4⟩
    · have hj : j ∈ [1] := by rw [h1]; simp
      rw [List.mem_singleton] at hj
      rw [hj] at h6
      exact h6
    · exact h4 [] 1 rfl (by decide +kernel)
  rw [hret, if_pos rfl, show doubleParams.minRet = 0 from rfl, Rat.cast_zero, sub_zero, abs_of_pos (by linarith)]
  norm_num
  linarith

end FinML
